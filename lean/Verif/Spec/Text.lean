import Mathlib.Data.Rat.Defs
import Mathlib.Algebra.Order.Field.Rat

/-!
# Reading text: words separated by spaces, decimal numerals, fields separated by commas
-/

namespace Rbfopt

/-- The characters before the first space, and the words after it. -/
def firstWord : List Char → List Char × List (List Char)
  | [] => ([], [])
  | c :: t =>
    let (w, ws) := firstWord t
    if c = ' ' then ([], if w = [] then ws else w :: ws) else (c :: w, ws)

/-- The words of a line: what is left between the spaces. -/
def words (t : List Char) : List (List Char) :=
  if (firstWord t).1 = [] then (firstWord t).2 else (firstWord t).1 :: (firstWord t).2

/-- The number written with digits `0`-`9`. -/
def readDigits (t : List Char) : ℕ := t.foldl (fun n c => 10 * n + (c.toNat - 48)) 0

/-- The number written as `-? digits . digits`. -/
def readNumeral (t : List Char) : ℚ :=
  let body := if t.head? = some '-' then t.tail else t
  let before := body.takeWhile (· ≠ '.')
  let after := (body.dropWhile (· ≠ '.')).tail
  (if t.head? = some '-' then -1 else 1) * ((readDigits before : ℚ) + (readDigits after : ℚ) / 10 ^ after.length)

/-- The integer written as `-? digits`. -/
def readInt (t : List Char) : ℤ :=
  if t.head? = some '-' then -(readDigits t.tail : ℤ) else readDigits t

/-- The parts of a line separated by commas. -/
def commaParts : List Char → List (List Char)
  | [] => [[]]
  | c :: t =>
    if c = ',' then [] :: commaParts t
    else match commaParts t with
      | [] => [[c]]
      | w :: ws => (c :: w) :: ws

end Rbfopt
