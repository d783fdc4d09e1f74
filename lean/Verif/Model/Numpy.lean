import Verif.Model.Basic

/-!
# Small numpy operations used by the set-up code
-/

namespace Rbfopt

/-- `np.where(mask)[0]`: positions (counted from `k`) of the elements satisfying `p`. -/
def whereFrom {α : Type} (p : α → Bool) : ℕ → List α → List ℕ
  | _, [] => []
  | k, x :: xs => if p x then k :: whereFrom p (k + 1) xs else whereFrom p (k + 1) xs

/-- Fancy indexing `a[idx]` (reading).  Simplification: numpy raises `IndexError` when an index is
out of range, here the default element is read; all uses are in range. -/
def gather {α : Type} (d : α) (a : List α) (idx : List ℕ) : List α := idx.map (fun i => a.getD i d)

/-- Fancy indexing `a[idx] = vals` (writing), one position after the other. -/
def scatter {α : Type} (a : List α) : List ℕ → List α → List α
  | i :: is, v :: vs => scatter (a.set i v) is vs
  | _, _ => a

/-- Python `list.insert(i, v)`; an index beyond the end appends. -/
def pyInsert {α : Type} (l : List α) (i : ℕ) (v : α) : List α := l.take i ++ v :: l.drop i

/-- Is a rational an integer? -/
def IsInt (x : ℚ) : Prop := ∃ z : ℤ, x = z

end Rbfopt
