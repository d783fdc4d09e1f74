import Verif.Model.Serial
import Verif.Model.Settings
import Mathlib.Data.Nat.Digits.Lemmas

/-!
# What is printed: the log, the summary, the settings

Text is a list of characters.  Numbers are exact; Python prints a float by rounding its exact value to the
given number of decimals, ties to even.  (`-0.0` and `nan` are not modelled.)
-/

namespace Rbfopt

/-- `'{:w}'` of a number: padded on the left with spaces to width `w`; longer text is not cut. -/
def padLeft (w : ℕ) (t : List Char) : List Char := List.replicate (w - t.length) ' ' ++ t

/-- `'{:ws}'` of a string: padded on the right. -/
def padRight (w : ℕ) (t : List Char) : List Char := t ++ List.replicate (w - t.length) ' '

/-- The character of a decimal digit. -/
def digitCh (d : ℕ) : Char := Char.ofNat (48 + d)

/-- `'{:d}'` of a natural number. -/
def fmtNat (n : ℕ) : List Char := if n = 0 then ['0'] else (Nat.digits 10 n).reverse.map digitCh

/-- `'{:d}'` of an integer. -/
def fmtInt (i : ℤ) : List Char := if i < 0 then '-' :: fmtNat i.natAbs else fmtNat i.natAbs

/-- Rounding to an integer, ties to even. -/
def roundEven (q : ℚ) : ℤ :=
  if q - ⌊q⌋ < 1 / 2 then ⌊q⌋ else if 1 / 2 < q - ⌊q⌋ then ⌊q⌋ + 1
  else if ⌊q⌋ % 2 = 0 then ⌊q⌋ else ⌊q⌋ + 1

/-- The decimals: exactly `d` digits of `m`, with leading zeros. -/
def fmtDecimals : ℕ → ℕ → List Char
  | 0, _ => []
  | d + 1, m => fmtDecimals d (m / 10) ++ [digitCh (m % 10)]

/-- `'{:.df}'` of a finite number, `0 < d`. -/
def fmtFixed (d : ℕ) (q : ℚ) : List Char :=
  let m := (roundEven (|q| * 10 ^ d)).toNat
  (if q < 0 then ['-'] else []) ++ fmtNat (m / 10 ^ d) ++ '.' :: fmtDecimals d (m % 10 ^ d)

/-- `'{:.df}'` of a number that may be `inf`. -/
def fmtFloat (d : ℕ) : EVal → List Char
  | ⊤ => "inf".toList
  | (q : ℚ) => fmtFixed d q

/-- rbfopt_algorithm.py:477-495 `print_init_line`: the two header lines. -/
def initLines : List (List Char) :=
  [[' '] ++ padLeft 5 "Iter".toList ++ [' '] ++ padLeft 6 "Cycle".toList ++ [' ', ' ']
      ++ padRight 15 "Action".toList ++ [' '] ++ padLeft 18 "Objective value".toList ++ [' ', ' ']
      ++ padLeft 8 "Time".toList ++ [' '] ++ padLeft 8 "Gap".toList,
   [' '] ++ padLeft 5 "----".toList ++ [' '] ++ padLeft 6 "-----".toList ++ [' ', ' ']
      ++ padRight 15 "------".toList ++ [' '] ++ padLeft 18 "---------------".toList ++ [' ', ' ']
      ++ padLeft 8 "----".toList ++ [' '] ++ padLeft 8 "---".toList]

/-- rbfopt_algorithm.py:521-526: the line of a message, `time` seconds after the start of the call. -/
def messageLine {O : Type} (s : Alg O) (msg : List Char) (time : ℚ) : List Char :=
  [' '] ++ padLeft 5 (fmtInt s.itercount) ++ [' '] ++ padLeft 6 (fmtInt s.cyc) ++ [' ', ' ']
    ++ padRight 35 msg ++ [' '] ++ padLeft 8 (fmtFixed 2 time)

/-- rbfopt_algorithm.py:528-537: the line of a value. -/
def valueLine {O : Type} (s : Alg O) (tag : List Char) (noisy : Bool) (obj : ℚ) (gap : EVal) (time : ℚ) :
    List Char :=
  [' '] ++ padLeft 5 (fmtInt s.itercount) ++ [' '] ++ padLeft 6 (fmtInt s.cyc) ++ [' ', ' ']
    ++ padRight 15 tag ++ [' '] ++ padLeft 18 (fmtFixed 6 obj) ++ [if noisy then '~' else ' ']
    ++ [' '] ++ padLeft 8 (fmtFixed 2 time) ++ [' '] ++ padLeft 8 (fmtFloat 2 (gap.map (· * 100)))
    ++ [' ', if gap < s.bestGapShown ∧ (obj : EVal) = s.fbest then '*' else ' ']

/-- rbfopt_algorithm.py:543-567 `print_summary_line`. -/
def summaryLine {O : Type} (s : Alg O) (noisy : Bool) (gap : EVal) (time : ℚ) : List Char :=
  "Summary: iters ".toList ++ padLeft 3 (fmtInt s.itercount) ++ " evals ".toList
    ++ padLeft 3 (fmtInt s.evalcount) ++ " noisy_evals ".toList ++ padLeft 3 (fmtInt s.noisyEvalcount)
    ++ " cycles ".toList ++ padLeft 3 (fmtInt s.cyc) ++ " opt_time ".toList
    ++ padLeft 7 (fmtFixed 2 time) ++ " tot_time ".toList ++ padLeft 7 (fmtFixed 2 s.elapsed)
    ++ " obj".toList ++ [if noisy then '~' else ' '] ++ [' '] ++ padLeft 15 (fmtFloat 6 s.fbest)
    ++ " gap ".toList ++ padLeft 6 (fmtFloat 2 (gap.map (100 * ·)))

/-- The summary printed by `optimize` (rbfopt_algorithm.py:795-802): the record `i` is the one returned. -/
def optimizeSummary {O : Type} (P : Params) (s : Alg O) (time : ℚ) : Option (List Char) :=
  match argminVal s.all.val with
  | none => none
  | some (_, i) =>
    match s.all.err[i]?, s.all.noisy[i]? with
    | some e, some b => some (summaryLine s b (computeGap P (s.fbest + (e.2 : EVal))) time)
    | _, _ => none

/-- Tags of value lines (rbfopt_algorithm.py:1024, 1042, 1060, 1062, 1071, 1079, 2044). -/
def logTags : List String :=
  ["InfStep", "Restoration", "AdjLocalStep", "LocalStep", "RefinementStep", "GlobalStep", "Initialization"]

/-- Messages (rbfopt_algorithm.py:783, 879, 1032, 1033, 1038, 1095, 2179). -/
def logMessages : List String :=
  ["All variables fixed, nothing to do!", "Restart", "Restoration phase failed.",
   "Changing linear system solve.", "Restoration phase failed. Restart.", "Discarded",
   "Switching to accurate mode"]

/-- Insertion into a sorted list of attributes (`sorted(attrs.items())`; the names are distinct, so values
are never compared). Strings are compared by code points. -/
def insertAttr (a : String × List Char) : List (String × List Char) → List (String × List Char)
  | [] => [a]
  | b :: l => if a.1 ≤ b.1 then a :: b :: l else b :: insertAttr a l

/-- `sorted(attrs.items())`. -/
def sortAttrs : List (String × List Char) → List (String × List Char)
  | [] => []
  | a :: l => insertAttr a (sortAttrs l)

/-- `'{:s}: {:s}'.format(name, value)`. -/
def attrText (a : String × List Char) : List Char := a.1.toList ++ [':', ' '] ++ a.2

/-- `', '.join(…)`. -/
def joinComma : List (List Char) → List Char
  | [] => []
  | [t] => t
  | t :: ts => t ++ [',', ' '] ++ joinComma ts

/-- rbfopt_settings.py:695-712 `print`: the three lines; `str` is Python's `str` of a value. -/
def settingsLines (str : SVal → List Char) (st : Settings) : List (List Char) :=
  ["RbfoptSettings:".toList,
   joinComma ((sortAttrs (settingsDefaults.map (fun e => (e.1, str (st e.1))))).map attrText), []]

end Rbfopt
