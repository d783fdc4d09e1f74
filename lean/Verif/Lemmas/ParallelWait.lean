import Verif.Model.ParallelWait
import Verif.Lemmas.ParallelStep
import Verif.Props.Select

/-! # The waiting loop -/

namespace Rbfopt

variable {O : Type} {P : Params} {env : Env O} {pe : PEnv O}

theorem waitLoop_count {ready : ℕ → ℕ → Bool} {need fuel t : ℕ} {inner : Bool}
    {js got g r : List EvalJob} (h : waitLoop ready need fuel t inner js got = some (g, r)) :
    need ≤ g.length ∧ ∃ sel d, g = got ++ d ∧ popJobs js sel = some (d, r) := by
  induction fuel generalizing t inner js got with
  | zero => simp [waitLoop] at h
  | succ fuel ih =>
    cases inner with
    | false =>
      unfold waitLoop at h
      split at h
      · rename_i hn
        simp only [Option.some.injEq, Prod.mk.injEq] at h
        obtain ⟨rfl, rfl⟩ := h
        exact ⟨hn, [], [], by simp, rfl⟩
      · split at h <;> exact ih h
    | true =>
      unfold waitLoop at h
      split at h
      · dsimp only at h
        split at h
        · cases h
        · rename_i x hx
          obtain ⟨h1, sel, d, h2, h3⟩ := ih h
          refine ⟨h1, oneReadyIndex (js.map (fun x => ready (t + 1) x.id)) :: sel, x :: d, by simp [h2], ?_⟩
          simp only [popJobs, hx, h3]
      · exact ih h

theorem waitLoop_ends_aux {ready : ℕ → ℕ → Bool} {need T : ℕ}
    (hmono : ∀ t id, ready t id = true → ready (t + 1) id = true) :
    ∀ (μ t : ℕ) (inner : Bool) (js got : List EvalJob),
      (T - t) * 4 + 4 * js.length + (if inner then 2 else 3) ≤ μ →
      need ≤ got.length + js.length →
      (∀ x ∈ js, ∀ t', T ≤ t' → ready t' x.id = true) →
      ∃ fuel r, waitLoop ready need fuel t inner js got = some r := by
  intro μ
  induction μ using Nat.strong_induction_on with
  | _ μ ih =>
    intro t inner js got hμ hneed hready
    have hnotready : resultsReady (js.map (fun x => ready t x.id)) = false → js ≠ [] → t < T := by
      intro hr hne
      by_contra hle
      obtain ⟨x, hx⟩ := List.exists_mem_of_ne_nil js hne
      have : resultsReady (js.map (fun x => ready t x.id)) = true := by
        rw [C59_results_ready]
        exact List.mem_map.mpr ⟨x, hx, hready x hx t (by omega)⟩
      rw [hr] at this; cases this
    cases inner with
    | false =>
      by_cases hn : need ≤ got.length
      · exact ⟨1, (got, js), by simp [waitLoop, hn]⟩
      · have hne : js ≠ [] := by
          rintro rfl; simp at hneed; omega
        cases hr : resultsReady (js.map (fun x => ready t x.id)) with
        | true =>
          obtain ⟨fuel, r, h⟩ := ih ((T - (t + 1)) * 4 + 4 * js.length + 2) (by
            simp only [Bool.false_eq_true, if_false] at hμ; omega) (t + 1) true js got
            (by simp) hneed hready
          exact ⟨fuel + 1, r, by simp [waitLoop, hn, hr, h]⟩
        | false =>
          have := hnotready hr hne
          obtain ⟨fuel, r, h⟩ := ih ((T - (t + 1)) * 4 + 4 * js.length + 3) (by
            simp only [Bool.false_eq_true, if_false] at hμ; omega) (t + 1) false js got
            (by simp) hneed hready
          exact ⟨fuel + 1, r, by simp [waitLoop, hn, hr, h]⟩
    | true =>
      cases hr : resultsReady (js.map (fun x => ready t x.id)) with
      | true =>
        have hr1 : resultsReady (js.map (fun x => ready (t + 1) x.id)) = true := by
          rw [C59_results_ready] at hr ⊢
          obtain ⟨x, hx, hxr⟩ := List.mem_map.mp hr
          exact List.mem_map.mpr ⟨x, hx, hmono _ _ hxr⟩
        obtain ⟨i, hi, hi2, _⟩ := (C59_one_ready_index _).1 hr1
        rw [List.getElem?_map, Option.map_eq_some_iff] at hi2
        obtain ⟨x, hx, _⟩ := hi2
        have hlt := (List.getElem?_eq_some_iff.mp hx).1
        have hlen : (js.eraseIdx i).length + 1 = js.length := by
          rw [List.length_eraseIdx, if_pos hlt]; omega
        obtain ⟨fuel, r, h⟩ := ih ((T - (t + 2)) * 4 + 4 * (js.eraseIdx i).length + 2) (by
            simp only [if_true] at hμ; omega) (t + 2) true (js.eraseIdx i) (got ++ [x])
            (by simp) (by simp; omega)
            (fun y hy => hready y (List.mem_of_mem_eraseIdx hy))
        exact ⟨fuel + 1, r, by simp [waitLoop, hr, hi, hx, h]⟩
      | false =>
        by_cases hne : js = []
        · subst hne
          exact ⟨2, (got, []), by
            have : need ≤ got.length := by simpa using hneed
            simp [waitLoop, resultsReady, this]⟩
        · have := hnotready hr hne
          obtain ⟨fuel, r, h⟩ := ih ((T - (t + 1)) * 4 + 4 * js.length + 3) (by
            simp only [if_true] at hμ; omega) (t + 1) false js got
            (by simp) hneed hready
          exact ⟨fuel + 1, r, by simp [waitLoop, hr, h]⟩

theorem popJobs_len {js : List EvalJob} {sel : List ℕ} {d r : List EvalJob}
    (h : popJobs js sel = some (d, r)) : d.length ≤ js.length := by
  have := (popJobs_spec h).2.length_eq
  simp at this; omega

end Rbfopt
