import Verif.Model.Problem
import Verif.Model.SchoenData
import Mathlib.Analysis.SpecialFunctions.Log.Basic
import Mathlib.Analysis.SpecialFunctions.Pow.Real
import Mathlib.Analysis.SpecialFunctions.Trigonometric.Basic
import Mathlib.Data.Fin.VecNotation
import Mathlib.Algebra.BigOperators.Fin

/-!
# The bundled test functions

The classes of rbfopt_test_functions.py that `TestBlackBox` (2638-2674) selects by name.  Each class
consists of `evaluate`, the bounds and types of its variables, and a declared optimum.  Arithmetic is
over ℝ: rounding errors of floats are not modelled, and decimal literals are exact.
-/

namespace Rbfopt

/-- One class of rbfopt_test_functions.py: `dimension` (the parameter), `var_lower`/`var_upper`/`var_type` (one `Var`
per coordinate), `evaluate`, `optimum_point`, `additional_optima` (only two classes have it) and
`optimum_value`.  `eval x = none` stands for a call that does not return a number: no branch for the
category (the variable `fun` is unbound), or the division 0/0 of the schoen functions.  The length
assertion at the start of every `evaluate` is expressed by the type of points. -/
structure BundledFn (dim : ℕ) where
  vars : Fin dim → Var
  eval : (Fin dim → ℝ) → Option ℝ
  optPoint : Fin dim → ℝ
  extraOptima : List (Fin dim → ℝ) := []
  optVal : ℝ

namespace TestFns
open Real

/-- Python's `max(0, v)`. -/
noncomputable def pos (v : ℝ) : ℝ := max 0 v

/-- `class branin`, rbfopt_test_functions.py:22-42. -/
noncomputable def branin : BundledFn 2 where
  vars := ![⟨-5, 10, .R⟩, ⟨0, 15, .R⟩]
  eval := fun x => some ((x 1 - (5.1 / (4 * π * π)) * x 0 * x 0 + 5 / π * x 0 - 6) ^ 2
    + 10 * (1 - 1 / (8 * π)) * cos (x 0) + 10)
  optPoint := ![9.42477796, 2.47499998]
  optVal := 0.397887357729739
  extraOptima := [![-3.14159265, 12.27500000], ![3.14159265, 2.27500000]]

/-- `hartman3.a`, `hartman3_cat.a`, rbfopt_test_functions.py:61-63, 1957-1959. -/
noncomputable def hartA : Fin 3 → Fin 4 → ℝ :=
  ![![3.0, 0.1, 3.0, 0.1], ![10.0, 10.0, 10.0, 10.0], ![30.0, 35.0, 30.0, 35.0]]

/-- `hartman3.p`, `hartman3_cat.p`, rbfopt_test_functions.py:64-66, 1960-1962. -/
noncomputable def hartP : Fin 3 → Fin 4 → ℝ :=
  ![![0.36890, 0.46990, 0.10910, 0.03815], ![0.11700, 0.43870, 0.87320, 0.57430],
    ![0.26730, 0.74700, 0.55470, 0.88280]]

/-- `class hartman3`, rbfopt_test_functions.py:46-75. -/
noncomputable def hartman3 : BundledFn 3 where
  vars := fun _ => ⟨0, 1, .R⟩
  eval := fun x => some (-∑ i : Fin 4, (![1.0, 1.2, 3.0, 3.2] i : ℝ)
    * exp (-∑ j : Fin 3, hartA j i * (x j - hartP j i) ^ 2))
  optPoint := ![0.1, 0.55592003, 0.85218259]
  optVal := -3.8626347486217725

/-- `class camel`, rbfopt_test_functions.py:118-135. -/
noncomputable def camel : BundledFn 2 where
  vars := ![⟨-3, 3, .R⟩, ⟨-2, 2, .R⟩]
  eval := fun x => some ((4 - 2.1 * x 0 ^ 2 + x 0 ^ 4 / 3) * x 0 ^ 2 + x 0 * x 1 + (-4 + 4 * x 1 ^ 2) * x 1 ^ 2)
  optPoint := ![0.08984201, -0.7126]
  optVal := -1.0316284535

/-- `class goldsteinprice`, rbfopt_test_functions.py:139-160. -/
noncomputable def goldsteinprice : BundledFn 2 where
  vars := ![⟨-2, 2, .R⟩, ⟨-2, 2, .R⟩]
  eval := fun x => some ((1 + (x 0 + x 1 + 1) ^ 2
      * (19 - 14 * x 0 + 3 * x 0 ^ 2 - 14 * x 1 + 6 * x 0 * x 1 + 3 * x 1 ^ 2))
    * (30 + (2 * x 0 - 3 * x 1) ^ 2
      * (18 - 32 * x 0 + 12 * x 0 ^ 2 + 48 * x 1 - 36 * x 0 * x 1 + 27 * x 1 ^ 2)))
  optPoint := ![0.0, -1.0]
  optVal := 3

/-- `shekel5.a` and `shekel5.c`, rbfopt_test_functions.py:178-182. -/
noncomputable def shekA5 : Fin 4 → Fin 5 → ℝ :=
  ![![4.0, 1.0, 8.0, 6.0, 3.0],
    ![4.0, 1.0, 8.0, 6.0, 7.0],
    ![4.0, 1.0, 8.0, 6.0, 3.0],
    ![4.0, 1.0, 8.0, 6.0, 7.0]]

/-- see `shekA5`. -/
noncomputable def shekC5 : Fin 5 → ℝ := ![0.1, 0.2, 0.2, 0.4, 0.4]

/-- `class shekel5`, rbfopt_test_functions.py:164-189. -/
noncomputable def shekel5 : BundledFn 4 where
  vars := fun _ => ⟨0, 10, .R⟩
  eval := fun x => some (-∑ j : Fin 5, 1.0 / ((∑ i : Fin 4, (x i - shekA5 i j) ^ 2) + shekC5 j))
  optPoint := ![4, 4, 4, 4]
  optVal := -10.1531958509790

/-- `shekel7.a` and `shekel7.c`, rbfopt_test_functions.py:207-211. -/
noncomputable def shekA7 : Fin 4 → Fin 7 → ℝ :=
  ![![4.0, 1.0, 8.0, 6.0, 3.0, 2.0, 5.0],
    ![4.0, 1.0, 8.0, 6.0, 7.0, 9.0, 5.0],
    ![4.0, 1.0, 8.0, 6.0, 3.0, 2.0, 3.0],
    ![4.0, 1.0, 8.0, 6.0, 7.0, 9.0, 3.0]]

/-- see `shekA7`. -/
noncomputable def shekC7 : Fin 7 → ℝ := ![0.1, 0.2, 0.2, 0.4, 0.4, 0.6, 0.3]

/-- `class shekel7`, rbfopt_test_functions.py:193-219. -/
noncomputable def shekel7 : BundledFn 4 where
  vars := fun _ => ⟨0, 10, .R⟩
  eval := fun x => some (-∑ j : Fin 7, 1.0 / ((∑ i : Fin 4, (x i - shekA7 i j) ^ 2) + shekC7 j))
  optPoint := ![4, 4, 4, 4]
  optVal := -10.4028188369303

/-- `shekel10.a` and `shekel10.c`, rbfopt_test_functions.py:237-241. -/
noncomputable def shekA10 : Fin 4 → Fin 10 → ℝ :=
  ![![4.0, 1.0, 8.0, 6.0, 3.0, 2.0, 5.0, 8.0, 6.0, 7.0],
    ![4.0, 1.0, 8.0, 6.0, 7.0, 9.0, 5.0, 1.0, 2.0, 3.6],
    ![4.0, 1.0, 8.0, 6.0, 3.0, 2.0, 3.0, 8.0, 6.0, 7.0],
    ![4.0, 1.0, 8.0, 6.0, 7.0, 9.0, 3.0, 1.0, 2.0, 3.6]]

/-- see `shekA10`. -/
noncomputable def shekC10 : Fin 10 → ℝ := ![0.1, 0.2, 0.2, 0.4, 0.4, 0.6, 0.3, 0.7, 0.5, 0.5]

/-- `class shekel10`, rbfopt_test_functions.py:223-248. -/
noncomputable def shekel10 : BundledFn 4 where
  vars := fun _ => ⟨0, 10, .R⟩
  eval := fun x => some (-∑ j : Fin 10, 1.0 / ((∑ i : Fin 4, (x i - shekA10 i j) ^ 2) + shekC10 j))
  optPoint := ![4, 4, 4, 4]
  optVal := -10.53628372621960

/-- `class ex4_1_1`, rbfopt_test_functions.py:252-271. -/
noncomputable def ex4_1_1 : BundledFn 1 where
  vars := fun _ => ⟨-2, 11, .R⟩
  eval := fun x => some (x 0 ^ 6 - (52.0 / 25.0) * x 0 ^ 5 + (39.0 / 80.0) * x 0 ^ 4
    + (71.0 / 10.0) * x 0 ^ 3 - (79.0 / 20.0) * x 0 ^ 2 - x 0 + 1.0 / 10.0)
  optPoint := ![-1.19131]
  optVal := -7.487312360731

/-- `class ex8_1_4`, rbfopt_test_functions.py:328-345. -/
noncomputable def ex8_1_4 : BundledFn 2 where
  vars := ![⟨-2, 4, .R⟩, ⟨-5, 2, .R⟩]
  eval := fun x => some (12 * x 0 ^ 2 - 6.3 * x 0 ^ 4 + x 0 ^ 6 - 6 * x 0 * x 1 + 6 * x 1 ^ 2)
  optPoint := ![0.0, 0.0]
  optVal := 0.0

/-- `class rbrock`, rbfopt_test_functions.py:376-393. -/
noncomputable def rbrock : BundledFn 2 where
  vars := ![⟨-10, 5, .R⟩, ⟨-10, 10, .R⟩]
  eval := fun x => some (100 * (x 1 - x 0 ^ 2) ^ 2 + (1 - x 0) ^ 2)
  optPoint := ![1.0, 1.0]
  optVal := 0.0

/-- `class perm_6`, rbfopt_test_functions.py:397-419. -/
noncomputable def perm_6 : BundledFn 6 where
  vars := fun _ => ⟨-6, 6, .R⟩
  eval := fun x => some ((∑ k : Fin 6, (∑ i : Fin 6, (((i : ℝ) + 1) ^ (k : ℕ) + 60)
    * ((x i / ((i : ℝ) + 1)) ^ (k : ℕ) - 1)) ^ 2) + 1000)
  optPoint := fun i => (i : ℝ) + 1
  optVal := 1000.0

/-- `class perm0_8`, rbfopt_test_functions.py:423-445. -/
noncomputable def perm0_8 : BundledFn 8 where
  vars := fun _ => ⟨-1, 1, .R⟩
  eval := fun x => some ((∑ k : Fin 8, (∑ i : Fin 8, ((i : ℝ) + 1 + 100)
    * (x i ^ (k : ℕ) - (1 / ((i : ℝ) + 1)) ^ (k : ℕ))) ^ 2) + 1000)
  optPoint := fun i => 1.0 / ((i : ℝ) + 1)
  optVal := 1000.0

/-- The loop shared by the schoen functions (e.g. rbfopt_test_functions.py:458-472): the values `f`
weighted by the products of the distances to the other points.  `none` when the weights add up to
zero (the code divides by zero). -/
noncomputable def schoenLoop {m : ℕ} (f : Fin m → ℝ) (w : Fin m → ℝ) : Option ℝ :=
  if ∑ i, w i = 0 then none else some ((∑ i, f i * w i) / ∑ i, w i)

/-- `prod` of the inner loop: the product of `dist[j]` over `j != i`
(e.g. rbfopt_test_functions.py:461-464). -/
noncomputable def prodOthers {m : ℕ} (dist : Fin m → ℝ) (i : Fin m) : ℝ :=
  ∏ j, if i ≠ j then dist j else 1.0

/-- Entry of a table of coordinates stored in millionths. -/
noncomputable def zAt (z : List (List ℕ)) (i j : ℕ) : ℝ := ((z.getD i []).getD j 0 : ℕ) / 1000000

/-- Entry of a table of values stored in tenths. -/
noncomputable def fAt (f : List ℤ) (i : ℕ) : ℝ := (f.getD i 0 : ℤ) / 10

/-- `evaluate` of the schoen functions (rbfopt_test_functions.py:455-472, and 549, 643, 788) and, with
`scale = 10`, of their integer versions (1431-1448, 1527, 1623, 1770). -/
noncomputable def schoen (n : ℕ) (z : List (List ℕ)) (f : List ℤ) (scale : ℝ) (x : Fin n → ℝ) :
    Option ℝ :=
  schoenLoop (m := 50) (fun i => fAt f i)
    (prodOthers (fun i => ∑ j : Fin n, (x j / scale - zAt z i j) ^ 2))

/-- `evaluate` of `schoen_10_1_cat` and `schoen_10_2_cat` (rbfopt_test_functions.py:2065-2112,
2241-2288): the first two variables choose the functions applied to the coordinate differences for
the first and the last 25 points. -/
noncomputable def schoenCat (z : List (List ℕ)) (f : List ℤ) (x : Fin 12 → ℝ) : Option ℝ :=
  let fun1 : Option (ℝ → ℝ) :=
    if x 0 = 0 then some (fun t => t ^ 2) else if x 0 = 1 then some (fun t => |t + 50|)
    else if x 0 = 2 then some (fun t => log (t + 10))
    else if x 0 = 3 then some (fun t => sin t ^ 2) else none
  let fun2 : Option (ℝ → ℝ) :=
    if x 1 = 0 then some (fun t => log (t + 10)) else if x 1 = 1 then some (fun t => |t + 50|)
    else if x 1 = 2 then some (fun t => t ^ 2)
    else if x 1 = 3 then some (fun t => sin t ^ 2) else none
  match fun1, fun2 with
  | some g1, some g2 =>
    let dist1 : Fin 50 → ℝ := fun i => ∑ j : Fin 10, g1 (x (j.natAdd 2) - zAt z i j)
    let dist2 : Fin 50 → ℝ := fun i => ∑ j : Fin 10, g2 (x (j.natAdd 2) - zAt z i j)
    schoenLoop (fun i => fAt f i)
      (fun i => if (i : ℕ) < 25 then prodOthers dist1 i else prodOthers dist2 i)
  | _, _ => none

/-- `class schoen_6_1`, rbfopt_test_functions.py:449-539. -/
noncomputable def schoen_6_1 : BundledFn 6 where
  vars := fun _ => ⟨0, 1, .R⟩
  eval := fun x => schoen 6 SchoenData.z_6_1 SchoenData.f_6_1 1 x
  optPoint := ![0.298854, 0.181010, 0.984817, 0.125272, 0.548396, 0.894658]
  optVal := -1000

/-- `class schoen_6_2`, rbfopt_test_functions.py:543-633. -/
noncomputable def schoen_6_2 : BundledFn 6 where
  vars := fun _ => ⟨0, 1, .R⟩
  eval := fun x => schoen 6 SchoenData.z_6_2 SchoenData.f_6_2 1 x
  optPoint := ![0.669711, 0.815540, 0.646120, 0.377447, 0.111538, 0.040529]
  optVal := -1000

/-- `class schoen_10_1`, rbfopt_test_functions.py:637-778. -/
noncomputable def schoen_10_1 : BundledFn 10 where
  vars := fun _ => ⟨0, 1, .R⟩
  eval := fun x => schoen 10 SchoenData.z_10_1 SchoenData.f_10_1 1 x
  optPoint := ![0.914871, 0.765230, 0.139426, 0.617466, 0.823635, 0.794003, 0.801171, 0.568811, 0.279434, 0.540422]
  optVal := -1000

/-- `class schoen_10_2`, rbfopt_test_functions.py:782-924. -/
noncomputable def schoen_10_2 : BundledFn 10 where
  vars := fun _ => ⟨0, 1, .R⟩
  eval := fun x => schoen 10 SchoenData.z_10_2 SchoenData.f_10_2 1 x
  optPoint := ![0.131461, 0.965235, 0.046134, 0.983011, 0.719813, 0.827542, 0.662422, 0.570546, 0.578707, 0.013264]
  optVal := -1000

/-- `class schoen_6_1_int`, rbfopt_test_functions.py:1423-1515. -/
noncomputable def schoen_6_1_int : BundledFn 6 where
  vars := ![⟨0, 10, .I⟩, ⟨0, 10, .I⟩, ⟨0, 10, .I⟩, ⟨0, 10, .I⟩, ⟨0, 10, .R⟩, ⟨0, 10, .R⟩]
  eval := fun x => schoen 6 SchoenData.z_6_1_int SchoenData.f_6_1_int 10 x
  optPoint := ![4.0, 6.0, 1.0, 4.0, 6.37412, 2.04038]
  optVal := -1000

/-- `class schoen_6_2_int`, rbfopt_test_functions.py:1519-1611. -/
noncomputable def schoen_6_2_int : BundledFn 6 where
  vars := ![⟨0, 10, .I⟩, ⟨0, 10, .I⟩, ⟨0, 10, .I⟩, ⟨0, 10, .I⟩, ⟨0, 10, .R⟩, ⟨0, 10, .R⟩]
  eval := fun x => schoen 6 SchoenData.z_6_2_int SchoenData.f_6_2_int 10 x
  optPoint := ![3.0, 7.0, 4.0, 1.0, 2.58563, 9.32004]
  optVal := -1000

/-- `class schoen_10_1_int`, rbfopt_test_functions.py:1615-1758. -/
noncomputable def schoen_10_1_int : BundledFn 10 where
  vars := ![⟨0, 10, .I⟩, ⟨0, 10, .I⟩, ⟨0, 10, .I⟩, ⟨0, 10, .R⟩, ⟨0, 10, .R⟩, ⟨0, 10, .I⟩, ⟨0, 10, .I⟩, ⟨0, 10, .I⟩, ⟨0, 10, .R⟩, ⟨0, 10, .R⟩]
  eval := fun x => schoen 10 SchoenData.z_10_1_int SchoenData.f_10_1_int 10 x
  optPoint := ![6.0, 7.0, 0.0, 3.55500, 2.94700, 3.0, 5.0, 5.0, 7.59223, 5.08432]
  optVal := -1000

/-- `class schoen_10_2_int`, rbfopt_test_functions.py:1762-1905. -/
noncomputable def schoen_10_2_int : BundledFn 10 where
  vars := ![⟨0, 10, .I⟩, ⟨0, 10, .I⟩, ⟨0, 10, .I⟩, ⟨0, 10, .R⟩, ⟨0, 10, .R⟩, ⟨0, 10, .I⟩, ⟨0, 10, .I⟩, ⟨0, 10, .I⟩, ⟨0, 10, .R⟩, ⟨0, 10, .R⟩]
  eval := fun x => schoen 10 SchoenData.z_10_2_int SchoenData.f_10_2_int 10 x
  optPoint := ![0.0, 6.0, 8.0, 6.77718, 9.61189, 2.0, 8.0, 8.0, 5.24970, 8.15489]
  optVal := -1000

/-- `class schoen_10_1_cat`, rbfopt_test_functions.py:2060-2231. -/
noncomputable def schoen_10_1_cat : BundledFn 12 where
  vars := ![⟨0, 3, .C⟩, ⟨0, 3, .C⟩, ⟨0, 1, .R⟩, ⟨0, 1, .R⟩, ⟨0, 1, .R⟩, ⟨0, 1, .R⟩, ⟨0, 1, .R⟩, ⟨0, 1, .R⟩, ⟨0, 1, .R⟩, ⟨0, 1, .R⟩, ⟨0, 1, .R⟩, ⟨0, 1, .R⟩]
  eval := fun x => schoenCat SchoenData.z_10_1_cat SchoenData.f_10_1_cat x
  optPoint := ![0, 2, 0.914871, 0.765230, 0.139426, 0.617466, 0.823635, 0.794003, 0.801171, 0.568811, 0.279434, 0.540422]
  optVal := -1000

/-- `class schoen_10_2_cat`, rbfopt_test_functions.py:2236-2407. -/
noncomputable def schoen_10_2_cat : BundledFn 12 where
  vars := ![⟨0, 3, .C⟩, ⟨0, 3, .C⟩, ⟨0, 1, .R⟩, ⟨0, 1, .R⟩, ⟨0, 1, .R⟩, ⟨0, 1, .R⟩, ⟨0, 1, .R⟩, ⟨0, 1, .R⟩, ⟨0, 1, .R⟩, ⟨0, 1, .R⟩, ⟨0, 1, .R⟩, ⟨0, 1, .R⟩]
  eval := fun x => schoenCat SchoenData.z_10_2_cat SchoenData.f_10_2_cat x
  optPoint := ![0, 2, 0.131461, 0.965235, 0.046134, 0.983011, 0.719813, 0.827542, 0.662422, 0.570546, 0.578707, 0.013264]
  optVal := -1000

/-- The loop of the Schaeffer F7 functions (rbfopt_test_functions.py:935-943, 961-969; with a
categorical variable 2571-2587, 2608-2624): twelve coordinates, `base ** i` in the radius, `g` applied
to `50 * si ** 0.20`. -/
noncomputable def schaeffer (base : ℝ) (g : ℝ → ℝ) (opt x : Fin 12 → ℝ) : ℝ :=
  ∑ i : Fin 11,
    let si := base ^ (i : ℕ) * sqrt ((x i.castSucc - opt i.castSucc) ^ 2 + (x i.succ - opt i.succ) ^ 2)
    (1.0 / 11 * sqrt si * (g (50 * si ^ (0.20 : ℝ)) + 1)) ^ 2

/-- The functions chosen by the categorical variable of `branin_cat` and of the two
`schaeffer_f7_12_*_int_cat` (rbfopt_test_functions.py:1918-1925, 2571-2578, 2608-2615). -/
noncomputable def trigChoice (c : ℝ) : Option (ℝ → ℝ) :=
  if c = 0 then some cos else if c = 1 then some sin
  else if c = 2 then some (fun t => cos (t + π / 4) ^ 2)
  else if c = 3 then some (fun t => sin (t + π / 4) ^ 2) else none

/-- `schaeffer_f7_12_1.optimum_point`, rbfopt_test_functions.py:928-953. -/
noncomputable def schaeffer_f7_12_1_opt : Fin 12 → ℝ :=
  ![-34.32567, -34.98896, 7.69262, 30.3388, -48.24371, 23.18355, 24.93374, 32.07436, 46.86153, 4.64872, 25.64591, -16.69128]

/-- `class schaeffer_f7_12_1`, rbfopt_test_functions.py:928-952. -/
noncomputable def schaeffer_f7_12_1 : BundledFn 12 where
  vars := fun _ => ⟨-50, 50, .R⟩
  eval := fun x => some (schaeffer 2 sin schaeffer_f7_12_1_opt x - 10)
  optPoint := schaeffer_f7_12_1_opt
  optVal := -10

/-- `schaeffer_f7_12_2.optimum_point`, rbfopt_test_functions.py:955-980. -/
noncomputable def schaeffer_f7_12_2_opt : Fin 12 → ℝ :=
  ![-8.214, 30.69133, 48.26095, -4.94219, 15.15357, 0.4841, -13.54025, -40.78766, -16.02916, 16.42138, 39.30248, -49.56986]

/-- `class schaeffer_f7_12_2`, rbfopt_test_functions.py:955-979. -/
noncomputable def schaeffer_f7_12_2 : BundledFn 12 where
  vars := fun _ => ⟨-50, 50, .R⟩
  eval := fun x => some (schaeffer 3 sin schaeffer_f7_12_2_opt x + 10)
  optPoint := schaeffer_f7_12_2_opt
  optVal := 10

/-- `schaeffer_f7_12_1_int_cat.optimum_point`, rbfopt_test_functions.py:2561-2595. -/
noncomputable def schaeffer_f7_12_1_int_cat_opt : Fin 13 → ℝ :=
  ![-34.32567, -34.98896, 7.69262, 30.3388, -48.24371, 23.18355, 24.93374, 32.07436, 46.86153, 4, 25, -16, 1]

/-- `class schaeffer_f7_12_1_int_cat`, rbfopt_test_functions.py:2561-2595. -/
noncomputable def schaeffer_f7_12_1_int_cat : BundledFn 13 where
  vars := ![⟨-50, 50, .R⟩, ⟨-50, 50, .R⟩, ⟨-50, 50, .R⟩, ⟨-50, 50, .R⟩, ⟨-50, 50, .R⟩, ⟨-50, 50, .R⟩, ⟨-50, 50, .R⟩, ⟨-50, 50, .R⟩, ⟨-50, 50, .R⟩, ⟨-50, 50, .I⟩, ⟨-50, 50, .I⟩, ⟨-50, 50, .I⟩, ⟨0, 3, .C⟩]
  eval := fun x => (trigChoice (x 12)).map (fun g =>
    schaeffer 2 g (fun i => schaeffer_f7_12_1_int_cat_opt i.castSucc) (fun i => x i.castSucc) - 10)
  optPoint := schaeffer_f7_12_1_int_cat_opt
  optVal := -10

/-- `schaeffer_f7_12_2_int_cat.optimum_point`, rbfopt_test_functions.py:2598-2632. -/
noncomputable def schaeffer_f7_12_2_int_cat_opt : Fin 13 → ℝ :=
  ![-8.214, 30.69133, 48.26095, -4.94219, 15.15357, 0.4841, -13.54025, -40.78766, -16.02916, 16, 39, -49, 1]

/-- `class schaeffer_f7_12_2_int_cat`, rbfopt_test_functions.py:2598-2632. -/
noncomputable def schaeffer_f7_12_2_int_cat : BundledFn 13 where
  vars := ![⟨-50, 50, .R⟩, ⟨-50, 50, .R⟩, ⟨-50, 50, .R⟩, ⟨-50, 50, .R⟩, ⟨-50, 50, .R⟩, ⟨-50, 50, .R⟩, ⟨-50, 50, .R⟩, ⟨-50, 50, .R⟩, ⟨-50, 50, .R⟩, ⟨-50, 50, .I⟩, ⟨-50, 50, .I⟩, ⟨-50, 50, .I⟩, ⟨0, 3, .C⟩]
  eval := fun x => (trigChoice (x 12)).map (fun g =>
    schaeffer 2 g (fun i => schaeffer_f7_12_2_int_cat_opt i.castSucc) (fun i => x i.castSucc) - 10)
  optPoint := schaeffer_f7_12_2_int_cat_opt
  optVal := -10

/-- `class gear`, rbfopt_test_functions.py:984-1001. -/
noncomputable def gear : BundledFn 4 where
  vars := fun _ => ⟨12, 60, .I⟩
  eval := fun x => some ((0.14427932477276 - x 0 * x 1 / (x 2 * x 3)) ^ 2)
  optPoint := ![12.0, 23.0, 58.0, 33.0]
  optVal := 0.0

/-- The formula of `gear4` and `gear4_cat` (rbfopt_test_functions.py:1014-1019, 2431-2436). -/
noncomputable def gear4Value (a b c d s : ℝ) : ℝ :=
  -1000000 * a * b / (c * d) + 2 * s + 144279.32477276
    + 10 * pos (-(-1000000 * a * b / (c * d) + s + 144279.32477276))

/-- `class gear4`, rbfopt_test_functions.py:1005-1026. -/
noncomputable def gear4 : BundledFn 5 where
  vars := ![⟨12, 60, .I⟩, ⟨12, 60, .I⟩, ⟨12, 60, .I⟩, ⟨12, 60, .I⟩, ⟨0, 100, .R⟩]
  eval := fun x => some (gear4Value (x 0) (x 1) (x 2) (x 3) (x 4))
  optPoint := ![19.0, 16.0, 43.0, 49.0, 1.64342847396619]
  optVal := 1.6434284739

/-- Constraint expressions of `nvs02` and `nvs14` (rbfopt_test_functions.py:1041-1062, 1212-1233);
`s` is `sqrt (x 2)` in `nvs02` and `x 2 ** 2` in `nvs14`, `w` the penalty weight. -/
noncomputable def nvsPenalty (w s : ℝ) (x : Fin 5 → ℝ) : ℝ :=
  let g1 := 0.0056858 * x 1 * x 4 + 0.0006262 * x 0 * x 3 - 0.0022053 * x 2 * x 4 + 85.334407
  let g2 := 0.0071317 * x 1 * x 4 + 0.0029955 * x 0 * x 1 + 0.0021813 * s + 80.51249
  let g3 := 0.0047026 * x 2 * x 4 + 0.0012547 * x 0 * x 2 + 0.0019085 * x 2 * x 3 + 9.300961
  0.0 + w * pos (-g1) + w * pos (g1 - 92) + w * pos (-g2 + 90) + w * pos (g2 - 110)
    + w * pos (-g3 + 20) + w * pos (g3 - 25)

/-- `class nvs02`, rbfopt_test_functions.py:1030-1068. -/
noncomputable def nvs02 : BundledFn 5 where
  vars := fun _ => ⟨0, 200, .I⟩
  eval := fun x => some (0.0001 * (5.3578547 * sqrt (x 2) + 0.8356891 * x 0 * x 4
    + 37.293239 * x 0) + 5.9207859 + nvsPenalty 10 (sqrt (x 2)) x)
  optPoint := ![0.0, 9.0, 9.0, 200.0, 197.0]
  optVal := 5.9223932564100004

/-- `class nvs03`, rbfopt_test_functions.py:1073-1096. -/
noncomputable def nvs03 : BundledFn 2 where
  vars := fun _ => ⟨0, 200, .I⟩
  eval := fun x => some ((-8 + x 0) ^ 2 + (-2 + x 1) ^ 2 + (0.0 + 100 * pos (-(-0.1 * x 0 ^ 2 + x 1))
    + 100 * pos (-(-0.333333333333333 * x 0 - x 1 + 4.5))))
  optPoint := ![4.0, 2.0]
  optVal := 16.0

/-- `class nvs04`, rbfopt_test_functions.py:1100-1117. -/
noncomputable def nvs04 : BundledFn 2 where
  vars := fun _ => ⟨0, 200, .I⟩
  eval := fun x => some (100 * (0.5 + x 1 - (0.6 + x 0) ^ 2) ^ 2 + (0.4 - x 0) ^ 2)
  optPoint := ![1.0, 2.0]
  optVal := 0.72

/-- `class nvs06`, rbfopt_test_functions.py:1121-1139. -/
noncomputable def nvs06 : BundledFn 2 where
  vars := fun _ => ⟨1, 200, .I⟩
  eval := fun x => some (0.1 * (x 0 ^ 2 + (1 + x 1 ^ 2) / x 0 ^ 2
    + (100 + x 0 ^ 2 * x 1 ^ 2) / (x 0 * x 1) ^ 4) + 1.2)
  optPoint := ![2.0, 2.0]
  optVal := 1.7703125

/-- `class nvs07`, rbfopt_test_functions.py:1143-1166. -/
noncomputable def nvs07 : BundledFn 3 where
  vars := fun _ => ⟨0, 200, .I⟩
  eval := fun x => some (2 * x 1 ^ 2 + x 0 + 5 * x 2 + (0.0 + 10 * pos (-(x 2 ^ 2 * x 1 + 5 * x 2 + 3 * x 0 - 10))
    + 10 * pos (-(x 0 - x 2 - 2.66))))
  optPoint := ![4.0, 0.0, 0.0]
  optVal := 4.0

/-- `class nvs09`, rbfopt_test_functions.py:1170-1197. -/
noncomputable def nvs09 : BundledFn 10 where
  vars := fun _ => ⟨3, 9, .I⟩
  eval := fun x => some ((∑ i : Fin 10, (log (x i - 2) ^ 2 + log (10 - x i) ^ 2))
    - (∏ i : Fin 10, x i) ^ (0.2 : ℝ))
  optPoint := ![9, 9, 9, 9, 9, 9, 9, 9, 9, 9]
  optVal := -43.134336918035

/-- `class nvs14`, rbfopt_test_functions.py:1201-1239. -/
noncomputable def nvs14 : BundledFn 5 where
  vars := fun _ => ⟨0, 200, .I⟩
  eval := fun x => some (5.3578547 * x 2 ^ 2 + 0.8356891 * x 0 * x 4 + 37.293239 * x 0 - 40792.141
    + nvsPenalty 1000 (x 2 ^ 2) x)
  optPoint := ![0.0, 7.0, 9.0, 175.0, 200.0]
  optVal := -40358.1547693

/-- `class nvs15`, rbfopt_test_functions.py:1243-1265. -/
noncomputable def nvs15 : BundledFn 3 where
  vars := fun _ => ⟨0, 200, .I⟩
  eval := fun x => some (2 * x 0 ^ 2 - 8 * x 0 + 2 * x 1 ^ 2 - 6 * x 1 + x 2 ^ 2 - 4 * x 2 + 2 * x 0 * x 1
    + 2 * x 0 * x 2 + 9 + (0.0 + 10 * pos (-(-x 0 - x 1 - 2 * x 2 + 3))))
  optPoint := ![2.0, 0.0, 0.0]
  optVal := 1.0

/-- `class nvs16`, rbfopt_test_functions.py:1269-1288. -/
noncomputable def nvs16 : BundledFn 2 where
  vars := fun _ => ⟨0, 200, .I⟩
  eval := fun x => some ((1.5 - x 0 * (1 - x 1)) ^ 2 + (2.25 - x 0 * (1 - x 1 ^ 2)) ^ 2
    + (2.625 - x 0 * (1 - x 1 ^ 3)) ^ 2)
  optPoint := ![2.0, 0.0]
  optVal := 0.703125

/-- `class prob03`, rbfopt_test_functions.py:1292-1312. -/
noncomputable def prob03 : BundledFn 2 where
  vars := fun _ => ⟨1, 5, .I⟩
  eval := fun x => some (3 * x 0 + 2 * x 1 + 10 * pos (-(x 0 * x 1 - 3.5)))
  optPoint := ![2.0, 2.0]
  optVal := 10.0

/-- `class sporttournament06`, rbfopt_test_functions.py:1316-1342. -/
noncomputable def sporttournament06 : BundledFn 15 where
  vars := fun _ => ⟨0, 1, .I⟩
  eval := fun x => some (2 * x 0 * x 2 - 2 * x 0 + 2 * x 2 + 2 * x 0 * x 6 - 2 * x 6
    + 2 * x 1 * x 4 - 2 * x 1 - 2 * x 4 + 2 * x 1 * x 9
    - 4 * x 9 - 2 * x 2 * x 3 + 2 * x 3 - 2 * x 2 * x 11
    - 2 * x 2 * x 13 - 2 * x 3 * x 4 + 2 * x 3 * x 8 - 2 * x 8
    - 2 * x 3 * x 14 + 2 * x 4 * x 5 - 2 * x 5 + 2 * x 4 * x 7
    - 2 * x 7 + 2 * x 5 * x 8 - 2 * x 6 * x 7 + 2 * x 6 * x 11
    + 2 * x 6 * x 12 + 2 * x 7 * x 9 + 2 * x 7 * x 14
    + 2 * x 8 * x 10 - 2 * x 10 - 2 * x 8 * x 11 + 2 * x 9 * x 10
    + 2 * x 9 * x 11 - 2 * x 12 * x 14 + 2 * x 13 * x 14)
  optPoint := ![0.0, 1.0, 1.0, 1.0, 0.0, 1.0, 1.0, 1.0, 0.0, 0.0, 1.0, 0.0, 0.0, 1.0, 0.0]
  optVal := -12.0

/-- `class st_miqp1`, rbfopt_test_functions.py:1346-1369. -/
noncomputable def st_miqp1 : BundledFn 5 where
  vars := fun _ => ⟨0, 1, .I⟩
  eval := fun x => some (50 * x 0 * x 0 + 42 * x 0 + 50 * x 1 * x 1 + 44 * x 1 + 50 * x 2 * x 2 + 45 * x 2
    + 50 * x 3 * x 3 + 47 * x 3 + 50 * x 4 * x 4 + 47.5 * x 4
    + 100 * pos (-(20 * x 0 + 12 * x 1 + 11 * x 2 + 7 * x 3 + 4 * x 4 - 40)))
  optPoint := ![1.0, 1.0, 1.0, 0.0, 0.0]
  optVal := 281.0

/-- `class st_miqp3`, rbfopt_test_functions.py:1373-1393. -/
noncomputable def st_miqp3 : BundledFn 2 where
  vars := ![⟨0, 3, .I⟩, ⟨0, 50, .I⟩]
  eval := fun x => some (6 * x 0 * x 0 - 3 * x 1 + 10 * pos (-(4 * x 0 - x 1)))
  optPoint := ![1.0, 4.0]
  optVal := -6.0

/-- `class st_test1`, rbfopt_test_functions.py:1397-1419. -/
noncomputable def st_test1 : BundledFn 5 where
  vars := fun _ => ⟨0, 1, .I⟩
  eval := fun x => some (50 * x 0 * x 0 + 42 * x 0 + 50 * x 1 * x 1 - 44 * x 1 + 50 * x 3 * x 3 - 47 * x 3
    + 50 * x 4 * x 4 - 47.5 * x 4 + 45 * x 2
    + 10 * pos (-(-20 * x 0 - 12 * x 1 - 11 * x 2 - 7 * x 3 - 4 * x 4 + 40)))
  optPoint := ![0.0, 0.0, 0.0, 0.0, 0.0]
  optVal := 0.0

/-- `class branin_cat`, rbfopt_test_functions.py:1910-1938. -/
noncomputable def branin_cat : BundledFn 3 where
  vars := ![⟨-5, 10, .R⟩, ⟨0, 15, .R⟩, ⟨0, 3, .C⟩]
  eval := fun x => (trigChoice (x 2)).map (fun g =>
    (x 1 - (5.1 / (4 * π * π)) * x 0 * x 0 + 5 / π * x 0 - 6) ^ 2
    + 10 * (1 - 1 / (8 * π)) * g (x 0) + 10)
  optPoint := ![9.42477796, 2.47499998, 0]
  optVal := 0.397887357729739
  extraOptima := [![-3.14159265, 12.27500000, 0], ![3.14159265, 2.27500000, 0]]

/-- `class gear4_cat`, rbfopt_test_functions.py:2411-2443. The function `fun` chosen by the category (2419-2428) is never called, so the category has no effect. -/
noncomputable def gear4_cat : BundledFn 6 where
  vars := ![⟨12, 60, .I⟩, ⟨12, 60, .I⟩, ⟨12, 60, .I⟩, ⟨12, 60, .I⟩, ⟨0, 100, .R⟩, ⟨0, 4, .C⟩]
  eval := fun x => some (gear4Value (x 0) (x 1) (x 2) (x 3) (x 4))
  optPoint := ![19.0, 16.0, 43.0, 49.0, 1.64342847396619, 1]
  optVal := 1.6434284739

/-- `class nvs07_cat`, rbfopt_test_functions.py:2447-2477. -/
noncomputable def nvs07_cat : BundledFn 4 where
  vars := ![⟨0, 200, .I⟩, ⟨0, 200, .I⟩, ⟨0, 200, .I⟩, ⟨2, 4, .C⟩]
  eval := fun x => (if x 3 = 2 then some (fun t => (t - 1) ^ 3) else if x 3 = 3 then some (fun t => exp (t / 50))
      else if x 3 = 4 then some (fun t => t ^ 2) else none : Option (ℝ → ℝ)).map (fun g =>
    2 * g (x 1) + x 0 + 5 * x 2 + (0.0 + 10 * pos (-(g (x 2) * x 1 + 5 * x 2 + 3 * x 0 - 10))
      + 10 * pos (-(x 0 - x 2 - 2.66))))
  optPoint := ![4.0, 0.0, 0.0, 2]
  optVal := 2.0

/-- `class nvs09_cat`, rbfopt_test_functions.py:2482-2520. -/
noncomputable def nvs09_cat : BundledFn 11 where
  vars := ![⟨3, 9, .I⟩, ⟨3, 9, .I⟩, ⟨3, 9, .I⟩, ⟨3, 9, .I⟩, ⟨3, 9, .I⟩, ⟨3, 9, .I⟩, ⟨3, 9, .I⟩, ⟨3, 9, .I⟩, ⟨3, 9, .I⟩, ⟨3, 9, .I⟩, ⟨0, 4, .C⟩]
  eval := fun x => (if x 10 = 0 then some sqrt else if x 10 = 1 then some (fun t => |t|)
      else if x 10 = 2 then some (fun t => 1 / (t - 0.9)) else if x 10 = 3 then some log
      else if x 10 = 4 then some (fun t => t - 2) else none : Option (ℝ → ℝ)).map (fun g =>
    (∑ i : Fin 10, (g (x i.castSucc - 2) ^ 2 + g (10 - x i.castSucc) ^ 2))
      - (∏ i : Fin 10, x i.castSucc) ^ (0.2 : ℝ))
  optPoint := ![8, 8, 8, 8, 7, 8, 7, 8, 8, 8, 2]
  optVal := -53.179649471788274

/-- `st_miqp1_cat.c`, rbfopt_test_functions.py:2543-2549. -/
def miqpC : Fin 7 → Fin 6 → ℕ :=
  ![![20, 12, 11, 7, 4, 40], ![8, 23, 12, 10, 10, 35], ![12, 25, 30, 4, 22, 60],
    ![18, 3, 15, 33, 25, 45], ![27, 11, 9, 20, 13, 32], ![9, 31, 25, 9, 27, 42],
    ![14, 23, 18, 12, 33, 37]]

/-- `class st_miqp1_cat`, rbfopt_test_functions.py:2524-2556. `int(x[0])` truncates; for the categories it is their value. -/
noncomputable def st_miqp1_cat : BundledFn 6 where
  vars := ![⟨0, 5, .C⟩, ⟨0, 1, .I⟩, ⟨0, 1, .I⟩, ⟨0, 1, .I⟩, ⟨0, 1, .I⟩, ⟨0, 1, .I⟩]
  eval := fun x => let k := ⌊x 0⌋.toNat
    if h : k < 7 then
      some (50 * x 1 * x 1 + 42 * x 1 + 50 * x 2 * x 2 + 44 * x 2 + 50 * x 3 * x 3 + 45 * x 3
        + 50 * x 4 * x 4 + 47 * x 4 + 50 * x 5 * x 5 + 47.5 * x 5
        + 100 * pos (-(∑ j : Fin 5, (miqpC ⟨k, h⟩ j.castSucc : ℝ) * x j.succ)
          + (miqpC ⟨k, h⟩ 5 : ℝ)))
    else none
  optPoint := ![4, 1.0, 1.0, 0.0, 0.0, 0.0]
  optVal := 186.0

/-- `hartman6.a`, `hartman6_cat.a`, rbfopt_test_functions.py:94-99, 1993-1998. -/
noncomputable def hart6A : Fin 6 → Fin 4 → ℝ :=
  ![![10.00, 0.05, 3.00, 17.00], ![3.00, 10.00, 3.50, 8.00], ![17.00, 17.00, 1.70, 0.05],
    ![3.50, 0.10, 10.00, 10.00], ![1.70, 8.00, 17.00, 0.10], ![8.00, 14.00, 8.00, 14.00]]

/-- `hartman6.p`, `hartman6_cat.p`, rbfopt_test_functions.py:100-105, 1999-2004. -/
noncomputable def hart6P : Fin 6 → Fin 4 → ℝ :=
  ![![0.1312, 0.2329, 0.2348, 0.4047], ![0.1696, 0.4135, 0.1451, 0.8828],
    ![0.5569, 0.8307, 0.3522, 0.8732], ![0.0124, 0.3736, 0.2883, 0.5743],
    ![0.8283, 0.1004, 0.3047, 0.1091], ![0.5886, 0.9991, 0.6650, 0.0381]]

/-- `class hartman6`, rbfopt_test_functions.py:79-114. -/
noncomputable def hartman6 : BundledFn 6 where
  vars := fun _ => ⟨0, 1, .R⟩
  eval := fun x => some (-∑ i : Fin 4, (![1.0, 1.2, 3.0, 3.2] i : ℝ)
    * exp (-∑ j : Fin 6, hart6A j i * (x j - hart6P j i) ^ 2))
  optPoint := ![0.20168952, 0.15001069, 0.47687398, 0.27533243, 0.31165162, 0.65730054]
  optVal := -3.32236801141551

/-- `hartman3_cat.c`, rbfopt_test_functions.py:1963-1967. -/
noncomputable def hart3catC : Fin 5 → Fin 4 → ℝ :=
  ![![3.2, 2.5, 0.2, 0.7], ![1.0, 1.2, 3.0, 3.2], ![2.2, 1.2, 3.1, 1.7], ![0.1, 2.1, 0.3, 3.7],
    ![1.8, 0.4, 3.1, 2.4]]

/-- `hartman6_cat.c`, rbfopt_test_functions.py:2005-2009. -/
noncomputable def hart6catC : Fin 5 → Fin 4 → ℝ :=
  ![![1.0, 1.2, 3.0, 3.2], ![3.2, 2.5, 0.2, 0.7], ![2.2, 1.2, 3.1, 1.7], ![0.1, 2.1, 0.3, 3.7],
    ![1.8, 0.4, 3.1, 2.4]]

/-- `class hartman3_cat`, rbfopt_test_functions.py:1942-1974. `int(x[3])` truncates; for the categories it is their value. -/
noncomputable def hartman3_cat : BundledFn 4 where
  vars := ![⟨0, 1, .R⟩, ⟨0, 1, .R⟩, ⟨0, 1, .R⟩, ⟨0, 4, .C⟩]
  eval := fun x => let k := ⌊x 3⌋.toNat
    if h : k < 5 then
      some (-∑ i : Fin 4, hart3catC ⟨k, h⟩ i
        * exp (-∑ j : Fin 3, hartA j i * (x j.castSucc - hartP j i) ^ 2))
    else none
  optPoint := ![0.155995, 0.536521, 0.843994, 3]
  optVal := -4.822787424687719

/-- `class hartman6_cat`, rbfopt_test_functions.py:1978-2017. `int(x[0])` truncates; for the categories it is their value. -/
noncomputable def hartman6_cat : BundledFn 7 where
  vars := ![⟨0, 4, .C⟩, ⟨0, 1, .R⟩, ⟨0, 1, .R⟩, ⟨0, 1, .R⟩, ⟨0, 1, .R⟩, ⟨0, 1, .R⟩, ⟨0, 1, .R⟩]
  eval := fun x => let k := ⌊x 0⌋.toNat
    if h : k < 5 then
      some (-∑ i : Fin 4, hart6catC ⟨k, h⟩ i
        * exp (-∑ j : Fin 6, hart6A j i * (x j.succ - hart6P j i) ^ 2))
    else none
  optPoint := ![2, 0.177401, 0.153512, 0.516698, 0.256499, 0.323092, 0.646352]
  optVal := -3.96231691936822

/-- The list `a` of `ex4_1_2.evaluate`, rbfopt_test_functions.py:284-294. -/
noncomputable def ex412A : Fin 50 → ℝ :=
  ![-500, 2.5, 1.666666666, 1.25, 1.0, 0.8333333,
    0.714285714, 0.625, 0.555555555, 1.0, -43.6363636, 0.41666666,
    0.384615384, 0.357142857, 0.3333333, 0.3125, 0.294117647, 0.277777777,
    0.263157894, 0.25, 0.238095238, 0.227272727, 0.217391304, 0.208333333,
    0.2, 0.192307692, 0.185185185, 0.178571428, 0.344827586, 0.6666666,
    -15.48387097, 0.15625, 0.1515151, 0.14705882, 0.14285712, 0.138888888,
    0.135135135, 0.131578947, 0.128205128, 0.125, 0.121951219, 0.119047619,
    0.116279069, 0.113636363, 0.1111111, 0.108695652, 0.106382978, 0.208333333,
    0.408163265, 0.8]

/-- `class ex4_1_2`, rbfopt_test_functions.py:275-303. -/
noncomputable def ex4_1_2 : BundledFn 1 where
  vars := fun _ => ⟨1, 2, .R⟩
  eval := fun x => some (∑ i : Fin 50, ex412A i * x 0 ^ ((i : ℕ) + 1))
  optPoint := ![1.09106]
  optVal := -663.4993631230575

/-- `class ex8_1_1`, rbfopt_test_functions.py:307-324. -/
noncomputable def ex8_1_1 : BundledFn 2 where
  vars := ![⟨-1, 2, .R⟩, ⟨-1, 1, .R⟩]
  eval := fun x => some (cos (x 0) * sin (x 1) - x 0 / (x 1 ^ 2 + 1))
  optPoint := ![2.0, 0.105783]
  optVal := -2.0218067833

/-- `class ex8_1_1_cat`, rbfopt_test_functions.py:2021-2056. -/
noncomputable def ex8_1_1_cat : BundledFn 4 where
  vars := ![⟨-1, 2, .R⟩, ⟨-1, 1, .R⟩, ⟨0, 3, .C⟩, ⟨0, 3, .C⟩]
  eval := fun x => 
    let fun1 : Option (ℝ → ℝ) :=
      if x 2 = 0 then some sin else if x 2 = 1 then some cos
      else if x 2 = 2 then some (fun t => cos (t + π / 4) ^ 2)
      else if x 2 = 3 then some (fun t => sin (t + π / 4) ^ 2) else none
    let fun2 : Option (ℝ → ℝ) :=
      if x 3 = 0 then some (fun t => sin (t + π / 4) ^ 2) else if x 3 = 1 then some sin
      else if x 3 = 2 then some (fun t => cos (t + π / 4) ^ 2)
      else if x 3 = 3 then some cos else none
    match fun1, fun2 with
    | some g1, some g2 => some (g1 (x 0) * g2 (x 1) - x 0 / (x 1 ^ 2 + 1))
    | _, _ => none
  optPoint := ![2.0, -0.00030, 1, 3]
  optVal := -2.4161466378205514

/-- `class least`, rbfopt_test_functions.py:349-371. -/
noncomputable def least : BundledFn 3 where
  vars := ![⟨0, 600, .R⟩, ⟨-200, 200, .R⟩, ⟨-5, 5, .R⟩]
  eval := fun x => some ((127 + (-x 1 * exp (-5 * x 2)) - x 0) ^ 2
    + (151 + (-x 1 * exp (-3 * x 2)) - x 0) ^ 2 + (379 + (-x 1 * exp (-x 2)) - x 0) ^ 2
    + (421 + (-x 1 * exp (5 * x 2)) - x 0) ^ 2 + (460 + (-x 1 * exp (3 * x 2)) - x 0) ^ 2
    + (426 + (-x 1 * exp (x 2)) - x 0) ^ 2)
  optPoint := ![516.651174172, -149.351893696, -0.206642767973]
  optVal := 14085.139848928

/-- `TestBlackBox.__init__`, rbfopt_test_functions.py:2646-2653, restricted to the modelled classes:
the class with the lower-cased name, or `ValueError` (`none`). -/
noncomputable def byName (name : String) : Option (Σ n, BundledFn n) :=
  match name.toLower with
  | "branin" => some ⟨_, branin⟩
  | "hartman3" => some ⟨_, hartman3⟩
  | "camel" => some ⟨_, camel⟩
  | "goldsteinprice" => some ⟨_, goldsteinprice⟩
  | "shekel5" => some ⟨_, shekel5⟩
  | "shekel7" => some ⟨_, shekel7⟩
  | "shekel10" => some ⟨_, shekel10⟩
  | "ex4_1_1" => some ⟨_, ex4_1_1⟩
  | "ex8_1_4" => some ⟨_, ex8_1_4⟩
  | "rbrock" => some ⟨_, rbrock⟩
  | "perm_6" => some ⟨_, perm_6⟩
  | "perm0_8" => some ⟨_, perm0_8⟩
  | "schoen_6_1" => some ⟨_, schoen_6_1⟩
  | "schoen_6_2" => some ⟨_, schoen_6_2⟩
  | "schoen_10_1" => some ⟨_, schoen_10_1⟩
  | "schoen_10_2" => some ⟨_, schoen_10_2⟩
  | "schoen_6_1_int" => some ⟨_, schoen_6_1_int⟩
  | "schoen_6_2_int" => some ⟨_, schoen_6_2_int⟩
  | "schoen_10_1_int" => some ⟨_, schoen_10_1_int⟩
  | "schoen_10_2_int" => some ⟨_, schoen_10_2_int⟩
  | "schoen_10_1_cat" => some ⟨_, schoen_10_1_cat⟩
  | "schoen_10_2_cat" => some ⟨_, schoen_10_2_cat⟩
  | "schaeffer_f7_12_1" => some ⟨_, schaeffer_f7_12_1⟩
  | "schaeffer_f7_12_2" => some ⟨_, schaeffer_f7_12_2⟩
  | "schaeffer_f7_12_1_int_cat" => some ⟨_, schaeffer_f7_12_1_int_cat⟩
  | "schaeffer_f7_12_2_int_cat" => some ⟨_, schaeffer_f7_12_2_int_cat⟩
  | "gear" => some ⟨_, gear⟩
  | "gear4" => some ⟨_, gear4⟩
  | "nvs02" => some ⟨_, nvs02⟩
  | "nvs03" => some ⟨_, nvs03⟩
  | "nvs04" => some ⟨_, nvs04⟩
  | "nvs06" => some ⟨_, nvs06⟩
  | "nvs07" => some ⟨_, nvs07⟩
  | "nvs09" => some ⟨_, nvs09⟩
  | "nvs14" => some ⟨_, nvs14⟩
  | "nvs15" => some ⟨_, nvs15⟩
  | "nvs16" => some ⟨_, nvs16⟩
  | "prob03" => some ⟨_, prob03⟩
  | "sporttournament06" => some ⟨_, sporttournament06⟩
  | "st_miqp1" => some ⟨_, st_miqp1⟩
  | "st_miqp3" => some ⟨_, st_miqp3⟩
  | "st_test1" => some ⟨_, st_test1⟩
  | "branin_cat" => some ⟨_, branin_cat⟩
  | "gear4_cat" => some ⟨_, gear4_cat⟩
  | "nvs07_cat" => some ⟨_, nvs07_cat⟩
  | "nvs09_cat" => some ⟨_, nvs09_cat⟩
  | "st_miqp1_cat" => some ⟨_, st_miqp1_cat⟩
  | "hartman6" => some ⟨_, hartman6⟩
  | "hartman3_cat" => some ⟨_, hartman3_cat⟩
  | "hartman6_cat" => some ⟨_, hartman6_cat⟩
  | "ex4_1_2" => some ⟨_, ex4_1_2⟩
  | "ex8_1_1" => some ⟨_, ex8_1_1⟩
  | "ex8_1_1_cat" => some ⟨_, ex8_1_1_cat⟩
  | "least" => some ⟨_, least⟩
  | _ => none

end TestFns

end Rbfopt
