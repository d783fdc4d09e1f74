import Verif.Lemmas.More
import Verif.Spec.Source

/-! # Noise flags, and fuel independence of the loop -/

namespace Rbfopt

variable {O : Type}

theorem Prov.source {P : Params} {env : Env O} {log : List Call} {p : Pt} {v : ℚ} {b : Bool}
    (h : Prov P env log p v b) : ∃ q, NearChain env P.epsZero p q ∧
      (Evaluated env log q v ∨ (b = false ∧ UserGave P q v) ∨
        (b = true ∧ EvaluatedNoisy env log q v)) := by
  induction h with
  | acc h => exact ⟨_, .refl _, Or.inl h⟩
  | noisy h => exact ⟨_, .refl _, Or.inr (Or.inr ⟨rfl, _, _, h⟩)⟩
  | user i h1 h2 => exact ⟨_, .refl _, Or.inr (Or.inl ⟨rfl, i, h1, h2⟩)⟩
  | near _ hd ih =>
    obtain ⟨r, hr, hs⟩ := ih
    exact ⟨r, .jump hd hr, hs⟩

/-- Accurate records have a zero error interval. -/
def FlagOK (s : Alg O) : Prop := s.all.All (fun _ _ b e => b = false → e = (0, 0))

theorem FlagOK.micro {P : Params} {env : Env O} {s t : Alg O}
    (w : WF env s) (h3 : FlagOK s) (hm : Micro P env s t) : FlagOK t := by
  cases hm with
  | ctrl e =>
    have e1 : t.all = s.all := congrArg Data.all e
    unfold FlagOK; rw [e1]; exact h3
  | log obj gap =>
    obtain ⟨g, st, e⟩ := updateLog_frame s obj gap
    rw [e]; exact h3
  | restart hr =>
    obtain ⟨tb, calls, m, M, i, ho⟩ := restart_spec hr
    unfold FlagOK
    rw [ho.all]
    refine Table.All.append w.allA h3 (ho.recs.mono ?_)
    rintro p v b e (⟨_, g2, g3⟩ | ⟨_, g2, g3⟩ | ⟨g1, _⟩ | ⟨k, _, g2, g3, _⟩) hb
    · exact g3
    · rw [g3] at hb; cases hb
    · exact h3.has g1 hb
    · exact g3
  | removeLocal i _ _ hr =>
    obtain ⟨_, _, rfl⟩ := removeNode_spec hr
    exact Table.All.eraseIdx h3 _
  | erase is _ _ => exact h3
  | removeRest i p t' _ hr =>
    obtain ⟨_, _, rfl⟩ := removeNode_spec hr
    exact Table.All.eraseIdx h3 _
  | add loc p0 d r hd hlt hev hadd =>
    obtain ⟨calls, ho⟩ := evaluateNext_spec hev w.allA
    obtain ⟨e, ha, he, _⟩ := addResult_spec hadd
    obtain ⟨q0, q0', -⟩ := ho.data_eqs
    unfold FlagOK
    rw [ha.all, q0']
    refine Table.All.append w.allA h3 ?_
    intro k p' v' b' e' g1 g2 g3 g4 hb
    cases k with
    | succ k => simp at g1
    | zero =>
      simp only [List.getElem?_cons_zero, Option.some.injEq] at g1 g2 g3 g4
      rw [← g4]; exact he (by rw [g3]; exact hb)
  | phase h _ => exact h3

theorem Reach.flag {P : Params} {env : Env O} {o : O} {c : Ctl} {s : Alg O}
    (h : Reach P env o c s) : FlagOK s :=
  h.inv' (by simp [FlagOK, Alg.init, Table.All]) (fun _ _ w hs hm => hs.micro w hm)

/-- Once the loop has ended, more fuel makes no difference. -/
theorem loop_fuel {P : Params} {env : Env O} {start pause : ℕ} (fuel k : ℕ) {s : Alg O} {loc : Loc}
    (h : loop P env start pause fuel s loc ≠ .outOfFuel) :
    loop P env start pause (fuel + k) s loc = loop P env start pause fuel s loc := by
  induction fuel generalizing s loc with
  | zero =>
    simp only [loop] at h ⊢
    split at h
    · simp at h
    · rename_i hc
      rw [if_neg hc]
      cases k with
      | zero => simp [loop, hc]
      | succ k => simp [loop, hc]
  | succ fuel ih =>
    rw [Nat.add_right_comm]
    simp only [loop] at h ⊢
    split
    · rename_i hc
      rw [if_pos hc] at h
      split
      · rfl
      · rename_i s' loc' hp
        rw [hp] at h
        exact ih h
    · rfl

end Rbfopt
