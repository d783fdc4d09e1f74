import Verif.Model.TestInterface
import Verif.Props.CliOptions

/-!
# The test interface (C97)
-/

namespace Rbfopt

/-- The black box the documentation of the test interface promises: the function of that name, with its dimension
multiplied if the multiplier is above 1, and with noise if one of the errors is positive. -/
def PromisedBB (a : TestArgs) (bb : TestBB) : Prop :=
  ∃ base, (a.dimensionMultiplier ≤ 1 → base = .plain a.function.toLower) ∧
    (1 < a.dimensionMultiplier → base = .enlarged a.function.toLower a.dimensionMultiplier) ∧
    (a.relError ≤ 0 ∧ a.absError ≤ 0 → bb = base) ∧
    (0 < a.relError ∨ 0 < a.absError → bb = .noisy base a.relError a.absError ∧
      0 ≤ a.relError ∧ 0 ≤ a.absError)

theorem makeBase_ok {attr : String → Option ModAttr} {a : TestArgs} {bb : TestBB}
    (h : makeBase attr a = .ok bb) :
    bb.function = a.function.toLower ∧ (a.dimensionMultiplier ≤ 1 → bb = .plain a.function.toLower) ∧
    (1 < a.dimensionMultiplier → bb = .enlarged a.function.toLower a.dimensionMultiplier) := by
  unfold makeBase at h
  split_ifs at h with hm
  · split at h <;> cases h
    exact ⟨rfl, fun h => absurd h (not_le.mpr hm), fun _ => rfl⟩
  · split at h <;> cases h
    exact ⟨rfl, fun _ => rfl, fun h => absurd h hm⟩

theorem makeTestBB_ok {attr : String → Option ModAttr} {a : TestArgs} {bb : TestBB}
    (h : makeTestBB attr a = .ok bb) : bb.function = a.function.toLower ∧ PromisedBB a bb := by
  unfold makeTestBB at h
  split at h
  · cases h
  · rename_i base hb
    obtain ⟨h1, h2, h3⟩ := makeBase_ok hb
    split_ifs at h with hn hp <;> cases h
    · exact ⟨h1, base, h2, h3,
        fun h => absurd hn (by push Not; exact h), fun _ => ⟨rfl, hp⟩⟩
    · exact ⟨h1, _, h2, h3, fun _ => rfl, fun h => absurd h hn⟩

/-- **C97** (test interface) The algorithm object is created with the black box asked for, and with the settings
of the command line except the target: `target_objval` is the declared optimal value of the function, whatever
was given. -/
theorem C97_interface {attr : String → Option ModAttr} {a : TestArgs} {bb : TestBB} {s : Settings}
    (h : testMain attr a = .ok (bb, s)) :
    PromisedBB a bb ∧
    (∃ v, attr a.function.toLower = some (.fn v) ∧ s "target_objval" = .num v) ∧
    ∀ name w, name ≠ "target_objval" → (settingsDefaults.lookup name).isSome = true →
      a.rest name = some w → s name = w := by
  unfold testMain at h
  split at h
  · cases h
  · rename_i b hb
    obtain ⟨h1, h2⟩ := makeTestBB_ok hb
    rw [h1] at h
    split at h
    · rename_i v hv
      dsimp only at h
      split at h
      · cases h
      · rename_i s' hs
        cases h
        have hall : ∀ name, (settingsDefaults.lookup name).isSome = true → ∀ w,
            Function.update a.rest "target_objval" (some (.num v)) name = some w → s name = w := by
          intro name hn w hw
          obtain ⟨k, hdoc⟩ := (known_iff name).mp hn
          have hk : name ∈ docstringOptions.map Prod.fst := by
            rw [docstring_names_documented, List.mem_map]; exact ⟨_, hdoc, rfl⟩
          have hv' := (C57_validation _).2.1 _ hs _ hdoc
          simp only [SettingsValue, lookup_filterMap, if_pos hk, hw] at hv'
          rcases hv' with e | ⟨e, -⟩
          · exact (Option.some.inj e).symm
          · cases e
        refine ⟨h2, ⟨v, hv, ?_⟩, fun name w hne hn hw => ?_⟩
        · exact hall _ (by decide +kernel) _ (by rw [Function.update_self])
        · exact hall name hn w (by rw [Function.update_of_ne hne]; exact hw)
    · cases h

/-- **C97** (test interface) What is refused, before any settings are made: names that are no attribute of the
module (`ValueError`), noise errors of which one is positive and the other negative (`AssertionError`), and
attributes that are no test functions (`AttributeError`). -/
theorem C97_interface_refused (attr : String → Option ModAttr) (a : TestArgs) :
    (attr a.function.toLower = none → testMain attr a = .error .valueError) ∧
    (attr a.function.toLower ≠ none → (0 < a.relError ∨ 0 < a.absError) → (a.relError < 0 ∨ a.absError < 0) →
      testMain attr a = .error .assertionError ∨ testMain attr a = .error .attributeError) ∧
    (attr a.function.toLower = some .other → ¬ ((0 < a.relError ∨ 0 < a.absError) ∧
      (a.relError < 0 ∨ a.absError < 0)) → testMain attr a = .error .attributeError) := by
  refine ⟨fun h => ?_, fun h h1 h2 => ?_, fun h h1 => ?_⟩
  · unfold testMain makeTestBB makeBase
    rw [h]
    split_ifs <;> rfl
  · have hn : ¬ (a.relError ≥ 0 ∧ a.absError ≥ 0) := by
      rintro ⟨g1, g2⟩; rcases h2 with h2 | h2 <;> linarith
    unfold testMain
    cases hb : makeTestBB attr a with
    | error e =>
      unfold makeTestBB at hb
      split at hb
      · rename_i e' he
        cases hb
        unfold makeBase at he
        split_ifs at he
        · split at he
          · rename_i g; exact absurd g h
          · cases he; exact .inr rfl
          · cases he
        · split at he
          · rename_i g; exact absurd g h
          · cases he
      · rw [if_pos h1, if_neg hn] at hb
        cases hb; exact .inl rfl
    | ok bb =>
      unfold makeTestBB at hb
      split at hb
      · cases hb
      · rw [if_pos h1, if_neg hn] at hb; cases hb
  · unfold testMain
    cases hb : makeTestBB attr a with
    | error e =>
      unfold makeTestBB at hb
      split at hb
      · rename_i e' he
        cases hb
        unfold makeBase at he
        rw [h] at he
        dsimp only at he
        split_ifs at he
        cases he; rfl
      · split_ifs at hb with g1 g2
        cases hb
        exact absurd ⟨g1, by by_contra g; push Not at g; exact g2 g⟩ h1
    | ok bb =>
      dsimp only
      rw [(makeTestBB_ok hb).1, h]

/-- **C97** (test interface) A multiplier of zero or a negative one, and negative errors, are accepted and
ignored. -/
theorem C97_violated_arguments_ignored (attr : String → Option ModAttr) (a : TestArgs) {v : ℚ}
    (hf : attr a.function.toLower = some (.fn v)) (hm : a.dimensionMultiplier ≤ 1) (hr : a.relError ≤ 0)
    (ha : a.absError ≤ 0) :
    testMain attr a = testMain attr { a with dimensionMultiplier := 1, relError := 0, absError := 0 } := by
  have h1 : makeTestBB attr a = .ok (.plain a.function.toLower) := by
    unfold makeTestBB makeBase
    rw [if_neg (by omega), hf]
    dsimp only
    rw [if_neg (by push Not; exact ⟨hr, ha⟩)]
  have h2 : makeTestBB attr { a with dimensionMultiplier := 1, relError := 0, absError := 0 }
      = .ok (.plain a.function.toLower) := by
    unfold makeTestBB makeBase
    dsimp only
    rw [if_neg (by omega), hf]
    dsimp only
    rw [if_neg (by simp)]
  unfold testMain
  rw [h1, h2]

/-- The noisy branin function of doubled dimension, with a target that is ignored. -/
example :
    let a : TestArgs := ⟨"Branin", 2, 1/10, 0, fun k => if k = "target_objval" then some (.num (-5))
      else if k = "max_evaluations" then some (.num 50) else none⟩
    let attr : String → Option ModAttr := fun n => if n = "branin" then some (.fn (3979/10000)) else none
    (testMain attr a).toOption.map (fun r => (r.1, r.2 "target_objval", r.2 "max_evaluations"))
      = some (.noisy (.enlarged "branin" 2) (1/10) 0, .num (3979/10000), .num 50) := by
  decide +kernel

end Rbfopt
