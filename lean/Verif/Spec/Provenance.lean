import Verif.Model.State

/-! # Where recorded values come from -/

namespace Rbfopt

variable {O : Type}

/-- `Prov P env log p v b`: the value `v` recorded at internal point `p` with noisy flag `b` has a
genuine source: a call of the black box at `p` found in `log`, or the value the user supplied for
`p`, or it was reused from a point less than `eps_zero` away that has a genuine source. -/
inductive Prov (P : Params) (env : Env O) (log : List Call) : Pt → ℚ → Bool → Prop
  | acc {p : Pt} {v : ℚ} {b : Bool} : Call.acc (env.decode p) v ∈ log → Prov P env log p v b
  | noisy {p : Pt} {v el eu : ℚ} : Call.noisy (env.decode p) v el eu ∈ log → Prov P env log p v true
  | user {p : Pt} {v : ℚ} (i : ℕ) : P.initPos[i]? = some p → P.initVal[i]? = some v →
      Prov P env log p v false
  | near {p q : Pt} {v : ℚ} {b : Bool} : Prov P env log q v b → env.dist p q < P.epsZero →
      Prov P env log p v b

end Rbfopt
