import Verif.Model.Basic

/-!
# Objective values that are not a number

The other modules take objective values from `ℚ`.  Here they are floats: NaN, a rational or `+inf`
(`-inf` is not modelled), and only the bookkeeping of values is modelled: what `add_node`,
`add_noisy_node` and `restart` do to `node_val, all_node_val, fmin, fmin_index, fmax, fbest,
fbest_index` (rbfopt_algorithm.py:625-641, 671-689, 1985-2033) and what `optimize` returns
(rbfopt_algorithm.py:795, 811).
-/

namespace Rbfopt

/-- A float that `evaluate()` may return. -/
inductive Flt
  | nan
  | num (x : EVal)
  deriving DecidableEq

/-- The comparison `a < b` of Python and numpy floats: false if one of them is NaN. -/
def Flt.lt : Flt → Flt → Bool
  | .num a, .num b => decide (a < b)
  | _, _ => false

/-- Python's `max(a, b)`: `b` if `b > a`, else `a`. -/
def Flt.pyMax (a b : Flt) : Flt := if a.lt b then b else a

/-- `np.argmin`: the first NaN if there is one, else the first minimiser; `none` for an empty array
(ValueError). -/
def npArgmin : List Flt → Option (Flt × ℕ)
  | [] => none
  | .nan :: _ => some (.nan, 0)
  | .num x :: xs =>
    match npArgmin xs with
    | none => some (.num x, 0)
    | some (.nan, i) => some (.nan, i + 1)
    | some (.num y, i) => if x ≤ y then some (.num x, 0) else some (.num y, i + 1)

/-- `np.max`: NaN if there is one. -/
def npMax : List Flt → Option Flt
  | [] => none
  | .nan :: _ => some .nan
  | .num x :: xs =>
    match npMax xs with
    | none => some (.num x)
    | some .nan => some .nan
    | some (.num y) => some (.num (max x y))

/-- The attributes that depend on the values (rbfopt_algorithm.py:409-433). -/
structure ValState where
  cur : List Flt := []
  all : List Flt := []
  fmin : Flt := .num ⊤
  fminIdx : ℕ := 0
  fmax : Flt := .num ⊤
  fbest : Flt := .num ⊤
  fbestIdx : ℕ := 0
  deriving DecidableEq

/-- rbfopt_algorithm.py:603-641 `add_node`, 643-689 `add_noisy_node`. -/
def ValState.add (s : ValState) (v : Flt) : ValState :=
  let s := { s with cur := s.cur ++ [v], all := s.all ++ [v], fmax := s.fmax.pyMax v }
  let s := if v.lt s.fmin then { s with fminIdx := s.cur.length - 1, fmin := v } else s
  if v.lt s.fbest then { s with fbestIdx := s.all.length - 1, fbest := v } else s

/-- rbfopt_algorithm.py:1985-2033 `restart` with the values `vs` of the new sample (user values,
evaluated and reused ones); ValueError (`none`) if there are none. -/
def ValState.restart (s : ValState) (vs : List Flt) : Option ValState :=
  match npArgmin vs, npMax vs with
  | some (m, i), some M =>
    let n := s.all.length
    let s := { s with all := s.all ++ vs, cur := vs, fminIdx := i, fmin := m, fmax := M }
    some (if m.lt s.fbest then { s with fbest := m, fbestIdx := i + n } else s)
  | _, _ => none

/-- What happens to the values during the life of the object. -/
inductive ValEvent
  | add (v : Flt)
  | restart (vs : List Flt)

/-- One event. -/
def ValState.step (s : ValState) : ValEvent → Option ValState
  | .add v => some (s.add v)
  | .restart vs => s.restart vs

/-- A history of events. -/
def ValState.exec : ValState → List ValEvent → Option ValState
  | s, [] => some s
  | s, e :: es =>
    match s.step e with
    | none => none
    | some s => s.exec es

/-- rbfopt_algorithm.py:795, 811: value and index of the record that `optimize` returns. -/
def ValState.returned (s : ValState) : Option (Flt × ℕ) := npArgmin s.all

/-- The values of a history. -/
def eventValues : List ValEvent → List Flt
  | [] => []
  | .add v :: es => v :: eventValues es
  | .restart vs :: es => vs ++ eventValues es

/-- The values of the samples of a history. -/
def sampleValues : List ValEvent → List Flt
  | [] => []
  | .add _ :: es => sampleValues es
  | .restart vs :: es => vs ++ sampleValues es

end Rbfopt
