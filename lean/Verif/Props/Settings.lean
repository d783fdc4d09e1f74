import Verif.Spec.Settings
import Verif.Model.Serial

/-!
# Properties of the settings object (C57, C58)
-/

namespace Rbfopt

theorem choiceOk_iff {ws : List String} {v : SVal} :
    choiceOk ws v = true ↔ (PKind.choice ws).Allows v := by
  cases v <;> simp [choiceOk, PKind.Allows]

theorem isNegative_ok {v : SVal} : isNegative v = .ok false ↔ PKind.nonneg.Allows v := by
  cases v <;> simp [isNegative, PKind.Allows]

theorem checkNonneg_ok {s : Settings} {ps : List String} :
    checkNonneg s ps = .ok () ↔ ∀ p ∈ ps, PKind.nonneg.Allows (s p) := by
  induction ps with
  | nil => simp [checkNonneg]
  | cons p ps ih =>
    rw [checkNonneg]
    have h := isNegative_ok (v := s p)
    simp only [List.forall_mem_cons]
    split
    · rename_i e he; rw [he] at h; simp only [reduceCtorEq, false_iff] at h ⊢; tauto
    · rename_i he; rw [he] at h; simp only [reduceCtorEq, false_iff, Except.ok.injEq,
        Bool.true_eq_false] at h ⊢; tauto
    · rename_i he; rw [ih]; exact ⟨fun g => ⟨h.mp he, g⟩, fun g => g.2⟩

/-- The tables of the code and of the documentation agree. -/
theorem documented_agree (s : Settings) :
    (∀ e ∈ documentedParams, e.2.Allows (s e.1)) ↔
    (∀ c ∈ settingsChoices, (PKind.choice c.2).Allows (s c.1)) ∧
    (∀ p ∈ settingsNonneg, PKind.nonneg.Allows (s p)) := by
  have key : ∀ (ws ws' : List String) (v : SVal), ws ⊆ ws' → (PKind.choice ws).Allows v →
      (PKind.choice ws').Allows v := by
    rintro ws ws' v h ⟨w, hw, e⟩
    exact ⟨w, h hw, e⟩
  have h1 : ∀ c ∈ settingsChoices, ∃ e ∈ documentedParams, e.1 = c.1 ∧
      ∃ ws, e.2 = .choice ws ∧ ws ⊆ c.2 := by
    simp [settingsChoices, documentedParams]
  have h2 : ∀ p ∈ settingsNonneg, (p, PKind.nonneg) ∈ documentedParams := by
    simp [settingsNonneg, documentedParams]
  have h3 : ∀ e ∈ documentedParams, e.2 = .any ∨ (e.2 = .nonneg ∧ e.1 ∈ settingsNonneg) ∨
      ∃ c ∈ settingsChoices, c.1 = e.1 ∧ ∃ ws, e.2 = .choice ws ∧ c.2 ⊆ ws := by
    simp [settingsChoices, settingsNonneg, documentedParams]
  constructor
  · intro h
    refine ⟨fun c hc => ?_, fun p hp => h _ (h2 p hp)⟩
    obtain ⟨e, he, e1, ws, e2, e3⟩ := h1 c hc
    have := h e he
    rw [e1, e2] at this
    exact key _ _ _ e3 this
  · rintro ⟨ha, hb⟩ e he
    rcases h3 e he with h | ⟨h, h'⟩ | ⟨c, hc, e1, ws, e2, e3⟩
    · rw [h]; trivial
    · rw [h]; exact hb _ h'
    · rw [e2, ← e1]; exact key _ _ _ e3 (ha c hc)

/-- Known names are the documented ones. -/
theorem known_iff (name : String) :
    (settingsDefaults.lookup name).isSome = true ↔ ∃ k, (name, k) ∈ documentedParams := by
  have h1 : ∀ e ∈ documentedParams, (settingsDefaults.lookup e.1).isSome = true := by
    simp [documentedParams, settingsDefaults, List.lookup]
  have h2 : ∀ e ∈ settingsDefaults, ∃ e' ∈ documentedParams, e'.1 = e.1 := by
    simp [documentedParams, settingsDefaults]
  constructor
  · intro h
    obtain ⟨v, hv⟩ := Option.isSome_iff_exists.mp h
    obtain ⟨e', he', e⟩ := h2 (name, v) (List.lookup_eq_some_iff.mp hv |> fun ⟨l, r, h, _⟩ => by
      rw [h]; simp)
    exact ⟨e'.2, by rw [← show e'.1 = name from e]; exact he'⟩
  · rintro ⟨k, hk⟩; exact h1 _ hk

/-- **C57** `from_dictionary` accepts a dictionary exactly if every key is a documented parameter
and every parameter, given or default, has a documented value; an accepted dictionary gives an
object holding the given values, and default values for the others.  A refused dictionary raises
`ValueError`, or `TypeError` when a word is given where a number is expected. -/
theorem C57_validation (args : List (String × SVal)) :
    ((∃ s, fromDictionary args = .ok s) ↔
      (∀ a ∈ args, ∃ k, (a.1, k) ∈ documentedParams) ∧
      (∀ e ∈ documentedParams, ∀ v, SettingsValue args e.1 v → e.2.Allows v)) ∧
    (∀ s, fromDictionary args = .ok s →
      ∀ e ∈ documentedParams, SettingsValue args e.1 (s e.1)) ∧
    (∀ e, fromDictionary args = .error e → e = .valueError ∨
      (e = .typeError ∧ ∃ p w, (p, PKind.nonneg) ∈ documentedParams ∧
        args.lookup p = some (.str w))) := by
  have hall : args.all (fun a => (settingsDefaults.lookup a.1).isSome) = true ↔
      ∀ a ∈ args, ∃ k, (a.1, k) ∈ documentedParams := by
    rw [List.all_eq_true]
    exact forall₂_congr fun a _ => known_iff a.1
  have hval : ∀ e ∈ documentedParams, ∀ v, SettingsValue args e.1 v ↔ settingsFill args e.1 = v := by
    intro e he v
    have hk := (known_iff e.1).mpr ⟨e.2, he⟩
    obtain ⟨d, hd⟩ := Option.isSome_iff_exists.mp hk
    unfold SettingsValue settingsFill
    cases h : args.lookup e.1 with
    | none => simp [hd]
    | some w => simp
  have hdoc : (∀ e ∈ documentedParams, ∀ v, SettingsValue args e.1 v → e.2.Allows v) ↔
      ∀ e ∈ documentedParams, e.2.Allows (settingsFill args e.1) := by
    refine forall₂_congr fun e he => ?_
    constructor
    · intro h; exact h _ ((hval e he _).mpr rfl)
    · intro h v hv; rw [← (hval e he v).mp hv]; exact h
  have hch : settingsChoices.all (fun c => choiceOk c.2 (settingsFill args c.1)) = true ↔
      ∀ c ∈ settingsChoices, (PKind.choice c.2).Allows (settingsFill args c.1) := by
    rw [List.all_eq_true]
    exact forall₂_congr fun c _ => choiceOk_iff
  have hok : ∀ s, fromDictionary args = .ok s ↔
      (∀ a ∈ args, ∃ k, (a.1, k) ∈ documentedParams) ∧
      (∀ e ∈ documentedParams, e.2.Allows (settingsFill args e.1)) ∧ s = settingsFill args := by
    intro s
    rw [documented_agree, ← hall, ← hch, ← checkNonneg_ok]
    unfold fromDictionary settingsNew
    dsimp only
    split
    · rename_i h1
      simp only [h1, true_and]
      split
      · rename_i h2
        simp only [h2, true_and]
        cases h3 : checkNonneg (settingsFill args) settingsNonneg with
        | error e => simp
        | ok u => simp [eq_comm]
      · rename_i h2; simp [h2]
    · rename_i h1; simp [h1]
  refine ⟨?_, ?_, ?_⟩
  · rw [hdoc]
    constructor
    · rintro ⟨s, hs⟩
      exact ⟨((hok s).mp hs).1, ((hok s).mp hs).2.1⟩
    · rintro ⟨h1, h2⟩
      exact ⟨_, (hok _).mpr ⟨h1, h2, rfl⟩⟩
  · intro s hs e he
    rw [((hok s).mp hs).2.2]
    exact (hval e he _).mpr rfl
  · intro e he
    have hneg : ∀ ps : List String, ps ⊆ settingsNonneg →
        ∀ e, checkNonneg (settingsFill args) ps = .error e →
        e = .valueError ∨ (e = .typeError ∧ ∃ p w, p ∈ settingsNonneg ∧
          settingsFill args p = .str w) := by
      intro ps
      induction ps with
      | nil => intro _ e h; cases h
      | cons p ps ih =>
        intro hs e h
        rw [checkNonneg] at h
        split at h
        · rename_i e' h'
          cases h
          right
          cases hv : settingsFill args p with
          | num q => rw [hv] at h'; cases h'
          | bool q => rw [hv] at h'; cases h'
          | str q =>
            rw [hv] at h'; cases h'
            exact ⟨rfl, p, q, hs (by simp), hv⟩
        · cases h; exact .inl rfl
        · exact ih (fun x hx => hs (by simp [hx])) e h
    unfold fromDictionary settingsNew at he
    dsimp only at he
    split at he
    · split at he
      · cases h3 : checkNonneg (settingsFill args) settingsNonneg with
        | ok u => rw [h3] at he; cases he
        | error e' =>
          rw [h3] at he; cases he
          rcases hneg _ (fun x hx => hx) _ h3 with h | ⟨h, p, w, hp, hw⟩
          · exact .inl h
          · right
            have hd : (p, PKind.nonneg) ∈ documentedParams := by
              have h2 : ∀ p ∈ settingsNonneg, (p, PKind.nonneg) ∈ documentedParams := by
                simp [settingsNonneg, documentedParams]
              exact h2 p hp
            refine ⟨h, p, w, hd, ?_⟩
            have hnum : ∀ p ∈ settingsNonneg, ∃ q, settingsDefaults.lookup p = some (.num q) := by
              simp [settingsNonneg, settingsDefaults, List.lookup]
            rcases (hval _ hd _).mpr hw with g | ⟨-, g⟩
            · exact g
            · obtain ⟨q, hq⟩ := hnum p hp
              rw [show settingsDefaults.lookup p = some (SVal.str w) from g] at hq
              cases hq
      · cases he; exact .inl rfl
    · cases he; exact .inl rfl

/-- The default settings are valid, a dictionary changing several parameters is accepted, one with
a misspelt name or a negative limit is not. -/
example : (∃ s, fromDictionary [] = .ok s) ∧
    (∃ s, fromDictionary [("rbf", .str "cubic"), ("max_iterations", .num 10),
      ("target_objval", .num (-5))] = .ok s) ∧
    (fromDictionary [("max_iteration", .num 10)]).toOption.isNone = true ∧
    (fromDictionary [("max_iterations", .num (-1))]).toOption.isNone = true ∧
    (fromDictionary [("rbf", .str "quintic")]).toOption.isNone = true := by
  refine ⟨?_, ?_, by decide +kernel, by decide +kernel, by decide +kernel⟩
  · have h : (fromDictionary []).toOption.isSome = true := by decide +kernel
    revert h
    cases fromDictionary [] <;> simp [Except.toOption]
  · have h : (fromDictionary [("rbf", .str "cubic"), ("max_iterations", .num 10),
      ("target_objval", .num (-5))]).toOption.isSome = true := by decide +kernel
    revert h
    cases fromDictionary _ <;> simp [Except.toOption]

/-- **C57** (violated part) Accepted settings can make the optimization crash: a state-saving
interval of 0 is accepted, and then every completed iteration raises. -/
theorem C57_violated_save_interval {O : Type} (P : Params) (h : P.saveInterval = 0)
    (s : Alg O) :
    (∃ st, fromDictionary [("save_state_interval", .num 0)] = .ok st) ∧
    endPass P s = .error .zeroDivisionError := by
  constructor
  · have h : (fromDictionary [("save_state_interval", .num 0)]).toOption.isSome = true := by
      decide +kernel
    revert h
    cases fromDictionary _ <;> simp [Except.toOption]
  · unfold endPass; simp [h]

/-! ## C58 -/

theorem Heap.get_write (h : Heap) (a b : ℕ) (ha : a < h.length) (n m : String) (v : SVal) :
    (h.write a n v).get b m = if b = a ∧ m = n then v else h.get b m := by
  unfold Heap.get Heap.write
  rw [List.getD_eq_getElem?_getD, List.getD_eq_getElem?_getD, List.getElem?_set]
  by_cases hb : a = b
  · subst hb
    rw [if_pos rfl, if_pos ha]
    simp only [Option.getD_some, true_and]
    by_cases hm : m = n
    · subst hm; simp
    · rw [Function.update_of_ne hm, if_neg hm, List.getD_eq_getElem?_getD]
  · rw [if_neg hb, if_neg (by tauto), List.getD_eq_getElem?_getD]

theorem Heap.length_write (h : Heap) (a : ℕ) (n : String) (v : SVal) :
    (h.write a n v).length = h.length := by simp [Heap.write]

theorem Heap.take_write (h : Heap) (a k : ℕ) (hk : k ≤ a) (n : String) (v : SVal) :
    (h.write a n v).take k = h.take k := by
  unfold Heap.write
  rw [List.take_set, List.set_eq_of_length_le]
  rw [List.length_take]; omega

/-- Effect of an assignment to the new object on the memory. -/
structure Heap.Ext (h h' : Heap) (c : ℕ) : Prop where
  len : h'.length = h.length
  old : h'.take c = h.take c

theorem Heap.Ext.refl (h : Heap) (c : ℕ) : Heap.Ext h h c := ⟨rfl, rfl⟩

theorem Heap.Ext.trans {h h' h'' : Heap} {c : ℕ} (a : Heap.Ext h h' c) (b : Heap.Ext h' h'' c) :
    Heap.Ext h h'' c := ⟨b.len.trans a.len, b.old.trans a.old⟩

theorem Heap.Ext.write (h : Heap) (c : ℕ) (n : String) (v : SVal) :
    Heap.Ext h (h.write c n v) c := ⟨Heap.length_write .., Heap.take_write _ _ _ le_rfl _ _⟩

/-- Replace `'auto'` by a value. -/
def resolve (v r : SVal) : SVal := if v = .str "auto" then r else v

theorem setAutoSimple_spec (h : Heap) (c : ℕ) (hc : c < h.length) :
    Heap.Ext h (setAutoSimple h c) c ∧ ∀ m, (setAutoSimple h c).get c m =
      if m = "rbf" then resolve (h.get c m) (.str "thin_plate_spline")
      else if m = "function_scaling" then resolve (h.get c m) (.str "off")
      else if m = "dynamism_clipping" then resolve (h.get c m) (.str "median")
      else h.get c m := by
  have step : ∀ (h : Heap) (hc : c < h.length) (n : String) (r : SVal),
      Heap.Ext h (if h.get c n = .str "auto" then h.write c n r else h) c ∧
      ∀ m, Heap.get (if h.get c n = .str "auto" then h.write c n r else h) c m =
        if m = n then resolve (h.get c m) r else h.get c m := by
    intro h hc n r
    split
    · rename_i h1
      refine ⟨Heap.Ext.write .., fun m => ?_⟩
      rw [Heap.get_write _ _ _ hc]
      simp only [true_and]
      split
      · rename_i h2; rw [h2, resolve, if_pos h1]
      · rfl
    · rename_i h1
      refine ⟨.refl _ _, fun m => ?_⟩
      split
      · rename_i h2; rw [h2, resolve, if_neg h1]
      · rfl
  unfold setAutoSimple
  dsimp only
  obtain ⟨a1, a2⟩ := step h hc "rbf" (.str "thin_plate_spline")
  generalize (if h.get c "rbf" = .str "auto" then h.write c "rbf" (.str "thin_plate_spline")
    else h) = h1 at *
  have hc1 : c < h1.length := by rw [a1.len]; exact hc
  obtain ⟨b1, b2⟩ := step h1 hc1 "function_scaling" (.str "off")
  generalize (if h1.get c "function_scaling" = .str "auto" then
    h1.write c "function_scaling" (.str "off") else h1) = h2 at *
  have hc2 : c < h2.length := by rw [b1.len]; exact hc1
  obtain ⟨d1, d2⟩ := step h2 hc2 "dynamism_clipping" (.str "median")
  refine ⟨(a1.trans b1).trans d1, fun m => ?_⟩
  rw [d2, b2, a2]
  by_cases e1 : m = "dynamism_clipping"
  · subst e1; simp
  · rw [if_neg e1]
    by_cases e2 : m = "function_scaling"
    · subst e2; simp
    · rw [if_neg e2, if_neg e2, if_neg e1]

theorem autoDomain_ok {lower upper : Pt} {ints : List ℕ} {v : SVal}
    (h : autoDomainScaling lower upper ints = .ok v) :
    (v = .str "affine" ∧ ints = [] ∧ BadlyScaled lower upper) ∨
    (v = .str "off" ∧ ¬ (ints = [] ∧ BadlyScaled lower upper)) := by
  unfold autoDomainScaling at h
  dsimp only at h
  split at h
  · rename_i h1; cases h; exact .inr ⟨rfl, fun g => h1 g.1⟩
  · rename_i h1
    have h1 : ints = [] := by simpa using h1
    set l := (List.zipWith (fun u l => u - l) upper lower) with hl
    set sz := l.mergeSort (fun a b => decide (a ≤ b)) with hsz
    have hsorted : sz.Pairwise (fun a b => a ≤ b) := by
      have := List.pairwise_mergeSort (le := fun a b : ℚ => decide (a ≤ b))
        (by intro a b c; simpa using le_trans) (by intro a b; simpa using le_total a b) l
      simpa using this
    have hmem : ∀ x, x ∈ sz ↔ x ∈ l := fun x => by rw [hsz]; exact List.mem_mergeSort
    have hzip : ∀ x, x ∈ l ↔ ∃ (i : ℕ) (li ui : ℚ), lower[i]? = some li ∧ upper[i]? = some ui ∧
        x = ui - li := by
      intro x
      rw [List.mem_iff_getElem?]
      simp only [hl, List.getElem?_zipWith]
      constructor
      · rintro ⟨i, hi⟩
        cases h2 : upper[i]? with
        | none => rw [h2] at hi; simp at hi
        | some u =>
          cases h3 : lower[i]? with
          | none => rw [h2, h3] at hi; simp at hi
          | some w => rw [h2, h3] at hi; exact ⟨i, w, u, h3, h2, by simpa using hi.symm⟩
      · rintro ⟨i, li, ui, a, b, rfl⟩
        exact ⟨i, by rw [a, b]⟩
    split at h
    · rename_i big small hb hs
      have hbm := List.mem_of_getLast? hb
      have hsm := List.mem_of_head? hs
      have hmax : ∀ x ∈ sz, x ≤ big := by
        intro x hx
        obtain ⟨ys, hys⟩ := List.getLast?_eq_some_iff.mp hb
        rw [hys] at hsorted hx
        rcases List.mem_append.mp hx with g | g
        · exact (List.pairwise_append.mp hsorted).2.2 x g big (by simp)
        · simp at g; exact le_of_eq g
      have hmin : ∀ x ∈ sz, small ≤ x := by
        intro x hx
        obtain ⟨ys, hys⟩ := List.head?_eq_some_iff.mp hs
        rw [hys] at hsorted hx
        rcases List.mem_cons.mp hx with g | g
        · exact le_of_eq g.symm
        · exact (List.pairwise_cons.mp hsorted).1 x g
      have hbad : BadlyScaled lower upper ↔ big ≥ 5 * small := by
        constructor
        · rintro ⟨i, j, li, ui, lj, uj, a, b, c, d, e⟩
          have g1 := hmax (ui - li) ((hmem _).mpr ((hzip _).mpr ⟨i, li, ui, a, b, rfl⟩))
          have g2 := hmin (uj - lj) ((hmem _).mpr ((hzip _).mpr ⟨j, lj, uj, c, d, rfl⟩))
          linarith
        · intro g
          obtain ⟨i, li, ui, a, b, e1⟩ := (hzip _).mp ((hmem _).mp hbm)
          obtain ⟨j, lj, uj, c, d, e2⟩ := (hzip _).mp ((hmem _).mp hsm)
          exact ⟨i, j, li, ui, lj, uj, a, b, c, d, by rw [← e1, ← e2]; exact g⟩
      cases h
      by_cases g : big ≥ 5 * small
      · left; rw [if_pos g]; exact ⟨rfl, h1, hbad.mpr g⟩
      · right; rw [if_neg g]; exact ⟨rfl, fun x => g (hbad.mp x.2)⟩
    · cases h

theorem autoDomain_exists {lower upper : Pt} {ints : List ℕ} (hl : lower.length = upper.length)
    (h : 0 < lower.length ∨ ints ≠ []) : ∃ v, autoDomainScaling lower upper ints = .ok v := by
  unfold autoDomainScaling
  dsimp only
  split
  · exact ⟨_, rfl⟩
  · rename_i h1
    have h0 : 0 < lower.length := by rcases h with h | h; exacts [h, absurd h h1]
    have hz : ((List.zipWith (fun u l => u - l) upper lower).mergeSort
        (fun a b => decide (a ≤ b))).length = lower.length := by
      rw [List.length_mergeSort, List.length_zipWith]; omega
    generalize (List.zipWith (fun u l => u - l) upper lower).mergeSort
      (fun a b => decide (a ≤ b)) = sz at *
    cases sz with
    | nil => simp at hz; omega
    | cons a l =>
      rw [List.getLast?_eq_some_getLast (by simp), List.head?_cons]
      exact ⟨_, rfl⟩

theorem setAutoDomain_spec {h h' : Heap} {c : ℕ} (hc : c < h.length) {lower upper : Pt}
    {ints : List ℕ} (he : setAutoDomain h c lower upper ints = .ok h') :
    Heap.Ext h h' c ∧ (∀ m, m ≠ "domain_scaling" → h'.get c m = h.get c m) ∧
    (h.get c "domain_scaling" ≠ .str "auto" → h' = h) ∧
    (h.get c "domain_scaling" = .str "auto" →
      autoDomainScaling lower upper ints = .ok (h'.get c "domain_scaling")) := by
  unfold setAutoDomain at he
  split at he
  · rename_i h1
    split at he
    · cases he
    · rename_i v hv
      cases he
      refine ⟨Heap.Ext.write .., fun m hm => ?_, fun g => absurd h1 g, fun _ => ?_⟩
      · rw [Heap.get_write _ _ _ hc, if_neg (fun g => hm g.2)]
      · rw [Heap.get_write _ _ _ hc, if_pos ⟨rfl, rfl⟩]; exact hv
  · rename_i h1
    cases he
    exact ⟨.refl _ _, fun _ _ => rfl, fun _ => rfl, fun g => absurd g h1⟩

theorem autoSampleFraction_pos {v : SVal} {d : ℕ} {f : ℚ} (h : autoSampleFraction v d = .ok f) :
    0 < f := by
  unfold autoSampleFraction at h
  split at h
  · cases h
  · cases h; split <;> norm_num
  · cases h; repeat' split
    all_goals norm_num

theorem setAutoFraction_spec {h h' : Heap} {c : ℕ} (hc : c < h.length) {dim : ℕ}
    (he : setAutoFraction h c dim = .ok h') :
    Heap.Ext h h' c ∧ (∀ m, m ≠ "init_sample_fraction" → h'.get c m = h.get c m) ∧
    (∀ q : ℚ, h.get c "init_sample_fraction" = .num q → 0 ≤ q → h' = h) ∧
    (∀ q : ℚ, h'.get c "init_sample_fraction" = .num q → 0 ≤ q) ∧
    (isNegative (h'.get c "init_sample_fraction") = .ok false) := by
  unfold setAutoFraction at he
  split at he
  · cases he
  · rename_i h1
    cases he
    refine ⟨.refl _ _, fun _ _ => rfl, fun _ _ _ => rfl, fun q hq => ?_, h1⟩
    rw [hq] at h1
    simpa [isNegative] using h1
  · rename_i h1
    split at he
    · cases he
    · rename_i f hf
      cases he
      have hp := autoSampleFraction_pos hf
      refine ⟨Heap.Ext.write .., fun m hm => ?_, fun q hq h0 => ?_, fun q hq => ?_, ?_⟩
      · rw [Heap.get_write _ _ _ hc, if_neg (fun g => hm g.2)]
      · rw [hq] at h1
        simp [isNegative] at h1
        linarith
      · rw [Heap.get_write _ _ _ hc, if_pos ⟨rfl, rfl⟩] at hq
        cases hq; exact hp.le
      · rw [Heap.get_write _ _ _ hc, if_pos ⟨rfl, rfl⟩]
        simp [isNegative, hp.le]

theorem Heap.get_append_self (h : Heap) (s : Settings) (m : String) :
    Heap.get (h ++ [s]) h.length m = s m := by
  unfold Heap.get
  rw [List.getD_eq_getElem?_getD]
  simp

/-- What `set_auto_parameters` does, for a problem with variable ranges `lower`/`upper` and
integer variables `ints`. -/
structure AutoSpec (h : Heap) (a : ℕ) (lower upper : Pt) (ints : List ℕ) (h' : Heap) (c : ℕ) :
    Prop where
  /-- a new object is returned -/
  fresh : c = h.length ∧ h'.length = h.length + 1
  /-- all objects that existed before are unchanged -/
  old : h'.take h.length = h
  /-- the new object has no automatic value -/
  noAuto : NoAuto (h'.get c)
  /-- explicit choices are kept -/
  kept : ∀ m, h.get a m ≠ .str "auto" →
    (m = "init_sample_fraction" → ∀ q : ℚ, h.get a m = .num q → 0 ≤ q) → h'.get c m = h.get a m
  /-- only the five parameters with automatic values can change -/
  others : ∀ m, m ∉ ["rbf", "function_scaling", "dynamism_clipping", "domain_scaling",
    "init_sample_fraction"] → h'.get c m = h.get a m
  /-- the domain is rescaled automatically exactly if the problem has no integer variables and
  the range of one variable is at least five times that of another -/
  scaling : h.get a "domain_scaling" = .str "auto" →
    (h'.get c "domain_scaling" = .str "affine" ↔ ints = [] ∧ BadlyScaled lower upper)

theorem setAuto_decompose {h h' : Heap} {a c dim : ℕ} {lower upper : Pt} {ints : List ℕ}
    (he : setAutoParameters h a dim lower upper ints = .ok (h', c)) :
    c = h.length ∧ ∃ h2,
      setAutoDomain (setAutoSimple (h ++ [h.getD a (fun _ => .bool false)]) h.length) h.length
        lower upper ints = .ok h2 ∧ setAutoFraction h2 h.length dim = .ok h' := by
  unfold setAutoParameters at he
  dsimp only at he
  split at he
  · split at he
    · cases he
    · rename_i h2 e2
      split at he
      · cases he
      · rename_i h3 e3
        cases he
        exact ⟨rfl, h2, e2, e3⟩
  · cases he

/-- **C58** For every settings object, whatever other objects exist, and for every problem:
`set_auto_parameters` returns a new object without automatic values, keeps every explicit choice,
leaves all existing objects unchanged, chooses the domain scaling as documented, and applying it
again to the result gives the same parameters. -/
theorem C58_auto_parameters {h h' : Heap} {a c dim : ℕ} {lower upper : Pt} {ints : List ℕ}
    (he : setAutoParameters h a dim lower upper ints = .ok (h', c)) :
    AutoSpec h a lower upper ints h' c ∧
    (∀ h'' c', setAutoParameters h' c dim lower upper ints = .ok (h'', c') →
      h''.get c' = h'.get c) := by
  have main : ∀ {h h' : Heap} {a c : ℕ},
      setAutoParameters h a dim lower upper ints = .ok (h', c) →
      AutoSpec h a lower upper ints h' c := by
    intro h h' a c he
    obtain ⟨rfl, h2, e2, e3⟩ := setAuto_decompose he
    set s : Settings := h.getD a (fun _ => .bool false) with hs
    have hsg : ∀ m, s m = h.get a m := fun m => rfl
    have hc0 : h.length < (h ++ [s]).length := by simp
    obtain ⟨a1, a2⟩ := setAutoSimple_spec (h ++ [s]) h.length hc0
    simp only [Heap.get_append_self, hsg] at a2
    set h1 := setAutoSimple (h ++ [s]) h.length
    have hc1 : h.length < h1.length := by rw [a1.len]; exact hc0
    obtain ⟨b1, b2, b3, b4⟩ := setAutoDomain_spec hc1 e2
    have hc2 : h.length < h2.length := by rw [b1.len]; exact hc1
    obtain ⟨d1, d2, d3, d4, -⟩ := setAutoFraction_spec hc2 e3
    have hext := (a1.trans b1).trans d1
    have hdom1 : h1.get h.length "domain_scaling" = h.get a "domain_scaling" := by
      rw [a2]; simp
    have hfr : h2.get h.length "init_sample_fraction" = h.get a "init_sample_fraction" := by
      rw [b2 _ (by decide), a2]; simp
    have hres : ∀ (v w : SVal), w ≠ .str "auto" → resolve v w ≠ .str "auto" := by
      intro v w hw; unfold resolve; split
      · exact hw
      · rename_i g; exact g
    have hresk : ∀ (v w : SVal), v ≠ .str "auto" → resolve v w = v := by
      intro v w hv; unfold resolve; rw [if_neg hv]
    refine ⟨⟨rfl, by rw [hext.len]; simp⟩, by rw [hext.old]; simp, ⟨?_, ?_, ?_, ?_, d4⟩, ?_, ?_, ?_⟩
    · rw [d2 _ (by decide), b2 _ (by decide), a2, if_pos rfl]
      exact hres _ _ (by decide)
    · rw [d2 _ (by decide), b2 _ (by decide), a2, if_neg (by decide), if_pos rfl]
      exact hres _ _ (by decide)
    · rw [d2 _ (by decide), b2 _ (by decide), a2, if_neg (by decide), if_neg (by decide),
        if_pos rfl]
      exact hres _ _ (by decide)
    · rw [d2 _ (by decide)]
      by_cases g : h.get a "domain_scaling" = .str "auto"
      · rcases autoDomain_ok (b4 (hdom1.trans g)) with ⟨x, -⟩ | ⟨x, -⟩ <;> rw [x] <;> decide
      · rw [b3 (by rw [hdom1]; exact g), hdom1]; exact g
    · intro m hm hf
      by_cases e1 : m = "init_sample_fraction"
      · subst e1
        have hneg : isNegative (h.get a "init_sample_fraction") ≠ .ok true := by
          cases hv : h.get a "init_sample_fraction" with
          | num q => have := hf rfl q hv; simp [isNegative, this]
          | str q => simp [isNegative]
          | bool q => simp [isNegative]
        have : h' = h2 := by
          unfold setAutoFraction at e3
          rw [hfr] at e3
          split at e3
          · cases e3
          · cases e3; rfl
          · rename_i g; exact absurd g hneg
        rw [this, hfr]
      · rw [d2 _ e1]
        by_cases e2' : m = "domain_scaling"
        · subst e2'
          rw [b3 (by rw [hdom1]; exact hm), hdom1]
        · rw [b2 _ e2', a2]
          rw [hresk _ _ hm, hresk _ _ hm, hresk _ _ hm]
          simp
    · intro m hm
      simp only [List.mem_cons, List.not_mem_nil, or_false, not_or] at hm
      obtain ⟨m1, m2, m3, m4, m5⟩ := hm
      rw [d2 _ m5, b2 _ m4, a2, if_neg m1, if_neg m2, if_neg m3]
    · intro g
      rw [d2 _ (by decide)]
      rcases autoDomain_ok (b4 (hdom1.trans g)) with ⟨x, y⟩ | ⟨x, y⟩
      · rw [x]; simp [y]
      · rw [x]; simp only [SVal.str.injEq, iff_false_intro y, iff_false]; decide
  refine ⟨main he, fun h'' c' he' => ?_⟩
  have h1 := main he
  have h2 := main he'
  funext m
  by_cases hm : m ∈ ["rbf", "function_scaling", "dynamism_clipping", "domain_scaling",
    "init_sample_fraction"]
  · refine h2.kept m ?_ ?_
    · obtain ⟨n1, n2, n3, n4, n5⟩ := h1.noAuto
      simp only [List.mem_cons, List.not_mem_nil, or_false] at hm
      rcases hm with rfl | rfl | rfl | rfl | rfl
      · exact n1
      · exact n2
      · exact n3
      · exact n4
      · obtain ⟨rfl, k2, e2, e3⟩ := setAuto_decompose he
        have hc : h.length < k2.length := by
          have b1 := (setAutoDomain_spec (by
            rw [(setAutoSimple_spec _ _ (by simp)).1.len]; simp) e2).1
          rw [b1.len, (setAutoSimple_spec _ _ (by simp)).1.len]; simp
        have := (setAutoFraction_spec hc e3).2.2.2.2
        intro g; rw [g] at this; cases this
    · rintro rfl; exact h1.noAuto.2.2.2.2
  · exact h2.others m hm

/-- The documented automatic values of a settings object: given the number of processors and the number
of variables, the value of each parameter with an automatic setting. -/
structure AutoValues (get get' : String → SVal) (dim : ℕ) : Prop where
  rbf : get "rbf" = .str "auto" → get' "rbf" = .str "thin_plate_spline"
  functionScaling : get "function_scaling" = .str "auto" → get' "function_scaling" = .str "off"
  clipping : get "dynamism_clipping" = .str "auto" → get' "dynamism_clipping" = .str "median"
  fractionSerial : ∀ q c : ℚ, get "init_sample_fraction" = .num q → q < 0 →
    get "num_cpus" = .num c → c ≤ 2 →
    (dim ≤ 20 → get' "init_sample_fraction" = .num (1/2)) ∧
    (20 < dim → get' "init_sample_fraction" = .num (2/5))
  fractionParallel : ∀ q c : ℚ, get "init_sample_fraction" = .num q → q < 0 →
    get "num_cpus" = .num c → 2 < c →
    (dim ≤ 20 → get' "init_sample_fraction" = .num 1) ∧
    (20 < dim → dim ≤ 50 → get' "init_sample_fraction" = .num (3/4)) ∧
    (50 < dim → get' "init_sample_fraction" = .num (1/2))

/-- **C58** The automatic values are the documented ones, for every settings object and problem. -/
theorem C58_auto_values {h h' : Heap} {a c dim : ℕ} {lower upper : Pt} {ints : List ℕ}
    (he : setAutoParameters h a dim lower upper ints = .ok (h', c)) :
    AutoValues (h.get a) (h'.get c) dim := by
  obtain ⟨rfl, h2, e2, e3⟩ := setAuto_decompose he
  set s : Settings := h.getD a (fun _ => .bool false) with hs
  have hsg : ∀ m, s m = h.get a m := fun m => rfl
  have hc0 : h.length < (h ++ [s]).length := by simp
  obtain ⟨a1, a2⟩ := setAutoSimple_spec (h ++ [s]) h.length hc0
  simp only [Heap.get_append_self, hsg] at a2
  set h1 := setAutoSimple (h ++ [s]) h.length
  have hc1 : h.length < h1.length := by rw [a1.len]; exact hc0
  obtain ⟨b1, b2, b3, b4⟩ := setAutoDomain_spec hc1 e2
  have hc2 : h.length < h2.length := by rw [b1.len]; exact hc1
  obtain ⟨d1, d2, d3, d4, -⟩ := setAutoFraction_spec hc2 e3
  have hfr : h2.get h.length "init_sample_fraction" = h.get a "init_sample_fraction" := by
    rw [b2 _ (by decide), a2]; simp
  have hcp : h2.get h.length "num_cpus" = h.get a "num_cpus" := by
    rw [b2 _ (by decide), a2]; simp
  have hfrac : ∀ q cp : ℚ, h.get a "init_sample_fraction" = .num q → q < 0 →
      h.get a "num_cpus" = .num cp → h'.get h.length "init_sample_fraction" =
        .num (if cp ≤ 2 then (if dim ≤ 20 then 1/2 else 2/5)
         else if dim ≤ 20 then 1 else if dim ≤ 50 then 3/4 else 1/2) := by
    intro q cp hq hneg hcp'
    have e := e3
    unfold setAutoFraction at e
    rw [hfr, hq, hcp, hcp'] at e
    simp only [isNegative, hneg, decide_true, autoSampleFraction] at e
    cases e
    rw [Heap.get_write _ _ _ hc2, if_pos ⟨rfl, rfl⟩]
  refine ⟨fun g => ?_, fun g => ?_, fun g => ?_, fun q cp hq hn hcp' hle => ?_,
    fun q cp hq hn hcp' hlt => ?_⟩
  · rw [d2 _ (by decide), b2 _ (by decide), a2, if_pos rfl, g]; rfl
  · rw [d2 _ (by decide), b2 _ (by decide), a2, if_neg (by decide), if_pos rfl, g]; rfl
  · rw [d2 _ (by decide), b2 _ (by decide), a2, if_neg (by decide), if_neg (by decide),
      if_pos rfl, g]; rfl
  · have := hfrac q cp hq hn hcp'
    rw [if_pos hle] at this
    exact ⟨fun g => by rw [this, if_pos g], fun g => by rw [this, if_neg (by omega)]⟩
  · have := hfrac q cp hq hn hcp'
    rw [if_neg (not_le.mpr hlt)] at this
    exact ⟨fun g => by rw [this, if_pos g],
      fun g g2 => by rw [this, if_neg (by omega), if_pos g2],
      fun g => by rw [this, if_neg (by omega), if_neg (by omega)]⟩

/-- `set_auto_parameters` succeeds for every object whose number of processors and sample fraction
are numbers and every problem with at least one variable (or an explicit domain scaling). -/
theorem C58_succeeds {h : Heap} {a dim : ℕ} {lower upper : Pt} {ints : List ℕ}
    (h1 : dim = lower.length) (h2 : dim = upper.length) (h3 : ∀ i ∈ ints, i < dim)
    (h4 : 0 < dim ∨ h.get a "domain_scaling" ≠ .str "auto")
    {c f : ℚ} (h5 : h.get a "num_cpus" = .num c) (h6 : h.get a "init_sample_fraction" = .num f) :
    ∃ r, setAutoParameters h a dim lower upper ints = .ok r := by
  unfold setAutoParameters
  rw [if_pos ⟨h1, h2, h3⟩]
  dsimp only
  set s : Settings := h.getD a (fun _ => .bool false) with hs
  have hsg : ∀ m, s m = h.get a m := fun m => rfl
  have hc0 : h.length < (h ++ [s]).length := by simp
  obtain ⟨a1, a2⟩ := setAutoSimple_spec (h ++ [s]) h.length hc0
  simp only [Heap.get_append_self, hsg] at a2
  set k1 := setAutoSimple (h ++ [s]) h.length
  have hc1 : h.length < k1.length := by rw [a1.len]; exact hc0
  have hk : ∃ k2, setAutoDomain k1 h.length lower upper ints = .ok k2 := by
    unfold setAutoDomain
    split
    · rename_i g
      rw [a2] at g
      simp only [String.reduceEq, if_false] at g
      obtain ⟨v, hv⟩ := autoDomain_exists (lower := lower) (upper := upper) (ints := ints)
        (by omega) (.inl (by rcases h4 with h4 | h4; exacts [h1 ▸ h4, absurd g h4]))
      rw [hv]; exact ⟨_, rfl⟩
    · exact ⟨_, rfl⟩
  obtain ⟨k2, hk2⟩ := hk
  rw [hk2]
  dsimp only
  obtain ⟨b1, b2, -, -⟩ := setAutoDomain_spec hc1 hk2
  have hf : k2.get h.length "init_sample_fraction" = .num f := by
    rw [b2 _ (by decide), a2]; simpa using h6
  have hn : k2.get h.length "num_cpus" = .num c := by
    rw [b2 _ (by decide), a2]; simpa using h5
  have hk : ∃ k3, setAutoFraction k2 h.length dim = .ok k3 := by
    unfold setAutoFraction
    rw [hf, hn]
    unfold isNegative autoSampleFraction
    dsimp only
    by_cases hq : f < 0
    · simp [hq]
    · simp [hq]
  obtain ⟨k3, hk3⟩ := hk
  rw [hk3]
  exact ⟨_, rfl⟩

end Rbfopt
