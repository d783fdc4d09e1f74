import Verif.Model.Memory

/-!
# What a user expects of the arrays

The expectation is stated with lists of points, without references.
-/

namespace Rbfopt

/-- Every recorded point has the coordinates the object had for it when its value was determined;
for an evaluated point, the coordinates `evaluate()` was given. -/
def Mem.Honest (m : Mem) : Prop := m.records = m.told

/-- The conditions under which `evaluate()` and the caller of `optimize()` may do what they like
with the arrays they get: `evaluate()` may write if the problem has categorical or fixed
variables or if evaluations run in other processes; the caller may write if the problem has
categorical variables. -/
def UserCode.Harmless (U : UserCode) (I : Internal) (par : Bool) : Prop :=
  (U.argWrites = true → I.expansion ≠ [] ∨ I.fixed ≠ [] ∨ par = true) ∧
  (U.resWrites = true → I.expansion ≠ [])

/-- The coordinates an object holds, as values: `self.node_pos`, `self.all_node_pos`,
`self.init_node_pos`. -/
structure Points where
  nodes : List Pt
  records : List Pt
  inits : List Pt

/-- The points of a state of the memory. -/
def Mem.points (m : Mem) : Points := ⟨m.nodes, m.records, m.inits⟩

/-- What may happen to the points if they are values: a new point is added, a node is removed, a
restart replaces the nodes by (the transforms of) new sample points, earlier records and user
points; or nothing. -/
inductive PointStep (tr : Pt → Pt) : Points → Points → Prop
  | add (P : Points) (p q : Pt) :
      PointStep tr P ⟨P.nodes ++ [p], P.records ++ [q], P.inits⟩
  | remove (P : Points) (i shift : ℕ) :
      PointStep tr P ⟨P.nodes.eraseIdx i, P.records.eraseIdx (shift + i), P.inits⟩
  | restart (P : Points) (X : List Pt) (js sel : List ℕ)
      (hj : ∀ j ∈ js, j < P.records.length) (hsel : ∀ j ∈ sel, j < P.inits.length) :
      PointStep tr P
        (let new := X ++ js.map (fun j => P.records.getD j []) ++
            sel.map (fun j => P.inits.getD j [])
         ⟨new.map tr, P.records ++ new, P.inits⟩)
  | keep (P : Points) : PointStep tr P P

end Rbfopt
