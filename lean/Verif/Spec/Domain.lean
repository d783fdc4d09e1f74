import Verif.Model.Serial
import Verif.Spec.Problem

/-! # Specification vocabulary for boxes -/

namespace Rbfopt

/-- `p` lies in the box with the given bounds (all of the same dimension). -/
def InBox (lower upper p : Pt) : Prop :=
  List.Forall₂ (· ≤ ·) lower p ∧ List.Forall₂ (· ≤ ·) p upper

/-- Every lower bound is strictly below the corresponding upper bound. -/
def ProperBox (lower upper : Pt) : Prop := List.Forall₂ (· < ·) lower upper

/-- Every point a search step can propose in a run satisfies `K`: global search, local search,
refinement, restoration. -/
structure ProposalsIn {O : Type} (env : Env O) (K : Pt → Prop) : Prop where
  search : ∀ s p o, env.search s = .ok (some p, o) → K p
  loc : ∀ s lp o p, env.localSearch s = .ok (lp, o) → lp.next = some p → K p
  ref : ∀ s rp o p, env.refStep s = .ok (rp, o) → rp.next = some p → K p
  rest : ∀ s i, K (env.restCand s i)

/-- Every point a search step can propose satisfies `K`, provided the current nodes do. -/
structure ProposalsFrom {O : Type} (env : Env O) (K : Pt → Prop) : Prop where
  search : ∀ s, (∀ q ∈ s.cur.pos, K q) → ∀ p o, env.search s = .ok (some p, o) → K p
  loc : ∀ s, (∀ q ∈ s.cur.pos, K q) → ∀ lp o p, env.localSearch s = .ok (lp, o) →
    lp.next = some p → K p
  ref : ∀ s, (∀ q ∈ s.cur.pos, K q) → ∀ rp o p, env.refStep s = .ok (rp, o) →
    rp.next = some p → K p
  rest : ∀ s, (∀ q ∈ s.cur.pos, K q) → ∀ i, K (env.restCand s i)

theorem ProposalsIn.from {O : Type} {env : Env O} {K : Pt → Prop} (h : ProposalsIn env K) :
    ProposalsFrom env K :=
  ⟨fun s _ => h.search s, fun s _ => h.loc s, fun s _ => h.ref s, fun s _ => h.rest s⟩

/-- Every point of an initial sample satisfies `Q`. -/
def SamplesIn {O : Type} (env : Env O) (Q : Pt → Prop) : Prop :=
  ∀ s pts o, env.initNodes s = .ok (pts, o) → ∀ p ∈ pts, Q p

end Rbfopt
