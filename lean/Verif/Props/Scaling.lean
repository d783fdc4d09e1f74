import Verif.Model.Scaling
import Mathlib.Order.Monotone.Basic
import Mathlib.Tactic.FieldSimp

/-!
# Function value scaling (C41)
-/

namespace Rbfopt

/-- Valid inputs of the scaling: values of the nodes with their error intervals, smallest and largest
value. -/
structure FvOk (vals : List ℝ) (errs : List (ℝ × ℝ)) (fmin fmax : ℝ) : Prop where
  errs_length : errs.length = vals.length
  errs_sign : ∀ e ∈ errs, e.1 ≤ 0 ∧ 0 ≤ e.2
  fmin_mem : fmin ∈ vals
  fmin_le : ∀ v ∈ vals, fmin ≤ v
  fmax_mem : fmax ∈ vals
  le_fmax : ∀ v ∈ vals, v ≤ fmax

theorem FvOk.le {vals : List ℝ} {errs : List (ℝ × ℝ)} {fmin fmax : ℝ}
    (h : FvOk vals errs fmin fmax) : fmin ≤ fmax := h.le_fmax _ h.fmin_mem

theorem amin_le : ∀ {l : List ℝ} {v : ℝ}, v ∈ l → amin l ≤ v
  | [x], v, h => by rw [List.mem_singleton.mp h]; exact le_rfl
  | x :: y :: l, v, h => by
    rw [amin]
    · rcases List.mem_cons.mp h with rfl | h
      · exact min_le_left _ _
      · exact (min_le_right _ _).trans (amin_le h)
    · simp

theorem median_bounds {l : List ℝ} {a b : ℝ} (hne : l ≠ []) (h : ∀ v ∈ l, a ≤ v ∧ v ≤ b) :
    a ≤ median l ∧ median l ≤ b := by
  have hpos := List.length_pos_of_ne_nil hne
  have hg : ∀ i < l.length, a ≤ (l.insertionSort (· ≤ ·)).getD i 0 ∧
      (l.insertionSort (· ≤ ·)).getD i 0 ≤ b := by
    intro i hi
    have hi' : i < (l.insertionSort (· ≤ ·)).length := by rwa [List.length_insertionSort]
    rw [List.getD_eq_getElem?_getD, List.getElem?_eq_getElem hi', Option.getD_some]
    exact h _ ((List.mem_insertionSort _).mp (List.getElem_mem hi'))
  obtain ⟨h1, h2⟩ := hg ((l.length - 1) / 2) (by omega)
  obtain ⟨h3, h4⟩ := hg (l.length / 2) (by omega)
  unfold median
  constructor <;> linarith

/-- The clipping level lies between the smallest and the largest value. -/
theorem clipLevel_bounds {C : ScalingCfg} {vals : List ℝ} {errs : List (ℝ × ℝ)} {fmin fmax m : ℝ}
    (hv : FvOk vals errs fmin fmax) (he0 : 0 ≤ C.epsZero) (he : C.epsZero < 1)
    (ht : C.clipping = .clipAtDyn → 1 ≤ C.threshold)
    (h : clipLevel C vals fmin fmax = some m) : fmin ≤ m ∧ m ≤ fmax := by
  unfold clipLevel at h
  split at h
  · rename_i hd
    obtain ⟨-, hd⟩ := hd
    split at h
    · cases h
    · cases h
      exact median_bounds (List.ne_nil_of_mem hv.fmin_mem)
        (fun v hv' => ⟨hv.fmin_le v hv', hv.le_fmax v hv'⟩)
    · rename_i hc
      cases h
      have ht := ht hc
      have hle := hv.le
      rcases hd with ⟨h1, h2⟩ | ⟨h1, h2⟩
      · rw [if_pos h1]
        have hp : 0 < |fmin| := lt_of_le_of_lt he0 h1
        rw [gt_iff_lt, lt_div_iff₀ hp] at h2
        constructor
        · have := le_abs_self fmin
          nlinarith
        · by_cases hf : 0 ≤ fmax
          · rw [abs_of_nonneg hf] at h2; exact h2.le
          · rw [not_le] at hf
            rw [abs_of_neg hf, abs_of_neg (lt_of_le_of_lt hle hf)] at h2
            nlinarith
      · rw [if_neg (not_lt.mpr h1), mul_one]
        have := le_abs_self fmin
        refine ⟨by linarith, ?_⟩
        by_cases hf : 0 ≤ fmax
        · rw [abs_of_nonneg hf] at h2; exact h2.le
        · rw [not_le] at hf
          rw [abs_of_neg hf] at h2
          rw [abs_of_neg (lt_of_le_of_lt hle hf)] at h1
          linarith
  · cases h

theorem logShift_pos {C : ScalingCfg} {vals : List ℝ} {errs : List (ℝ × ℝ)} {fmin fmax : ℝ}
    (hv : FvOk vals errs fmin fmax) (he0 : 0 < C.epsZero) :
    0 ≤ logShift C vals errs ∧ 1 ≤ fmin + logShift C vals errs := by
  obtain ⟨i, hi, e⟩ := List.mem_iff_getElem.mp hv.fmin_mem
  have hi' : i < errs.length := by rw [hv.errs_length]; exact hi
  have hm : vals[i] + (errs[i]).1 ∈ List.zipWith (fun v e => v + e.1) vals errs := by
    rw [List.mem_iff_getElem]
    exact ⟨i, by simp; omega, by simp⟩
  have h1 := amin_le hm
  have h2 := (hv.errs_sign _ (List.getElem_mem hi')).1
  rw [e] at h1
  have h3 := le_max_right 0 (1 - amin (List.zipWith (fun v e => v + e.1) vals errs))
  have h4 := le_max_left 0 (1 - amin (List.zipWith (fun v e => v + e.1) vals errs))
  have h5 : 0 < 1 / C.epsZero := by positivity
  unfold logShift
  simp only
  split <;> constructor <;> linarith

/-- Clipping is triggered: it is switched on and the largest value exceeds the threshold, relative to
the smallest value unless that is negligible. -/
def WideRange (C : ScalingCfg) (fmin fmax : ℝ) : Prop :=
  C.clipping ≠ .off ∧ (C.epsZero < |fmin| → C.threshold * |fmin| < |fmax|) ∧
    (|fmin| ≤ C.epsZero → C.threshold < |fmax|)

theorem wideRange_iff {C : ScalingCfg} {fmin fmax : ℝ} (he0 : 0 < C.epsZero) :
    WideRange C fmin fmax ↔ dynamismHigh C fmin fmax := by
  unfold WideRange dynamismHigh
  refine and_congr_right fun _ => ?_
  by_cases hf : C.epsZero < |fmin|
  · have hp : 0 < |fmin| := he0.trans hf
    have hn : ¬ |fmin| ≤ C.epsZero := not_le.mpr hf
    simp only [hf, hn, gt_iff_lt, true_and, false_and, or_false, forall_const, false_imp_iff,
      and_true]
    rw [lt_div_iff₀ hp]
  · have hn : |fmin| ≤ C.epsZero := not_lt.mp hf
    simp only [gt_iff_lt, hf, hn, true_and, false_and, false_or, forall_const, false_imp_iff]

/-- **C41** Scaling preserves order.  There are a clipping level `L` between the smallest and the
largest value (the largest value itself if clipping is off or not triggered) and a function `g`,
strictly increasing from the smallest value on, such that every value `v` is replaced by
`g (min v L)`, the smallest value by `g fmin`, and later values `x ≥ fmin` are rescaled to `g x`.  The
scaled maximum is `g L`, except that affine scaling reports the scaled minimum if the (clipped) values
differ by at most `eps_zero`.  All results are finite. -/
theorem C41_order_preserved {C : ScalingCfg} {vals : List ℝ} {errs : List (ℝ × ℝ)} {fmin fmax : ℝ}
    (hv : FvOk vals errs fmin fmax) (he0 : 0 < C.epsZero) (he : C.epsZero < 1)
    (ht : C.clipping = .clipAtDyn → 1 ≤ C.threshold) :
    ∃ (g : ℝ → ℝ) (L : ℝ), StrictMonoOn g (Set.Ici fmin) ∧ fmin ≤ L ∧ L ≤ fmax ∧
      (¬ WideRange C fmin fmax → L = fmax) ∧
      (transformFunctionValues C vals fmin fmax errs).vals = vals.map (fun v => some (g (min v L))) ∧
      (transformFunctionValues C vals fmin fmax errs).fmin = some (g fmin) ∧
      ((transformFunctionValues C vals fmin fmax errs).fmax = some (g L) ∨
        (C.scaling = .affine ∧ L - fmin ≤ C.epsZero ∧
          (transformFunctionValues C vals fmin fmax errs).fmax = some (g fmin))) ∧
      (∀ x, fmin ≤ x → (transformFunctionValues C vals fmin fmax errs).rescale x = some (g x)) := by
  rw [wideRange_iff he0]
  -- the level, as a number
  obtain ⟨L, hL1, hL2, hL3, hL4, hL5⟩ : ∃ L, fmin ≤ L ∧ L ≤ fmax ∧
      (¬ dynamismHigh C fmin fmax → L = fmax) ∧
      (vals.map (clipAt (clipLevel C vals fmin fmax)) = vals.map (fun v => min v L)) ∧
      clippedFmax (clipLevel C vals fmin fmax) fmax = L := by
    cases hc : clipLevel C vals fmin fmax with
    | none =>
      refine ⟨fmax, hv.le, le_rfl, fun _ => rfl, ?_, rfl⟩
      apply List.map_congr_left
      intro v hv'
      exact (min_eq_left (hv.le_fmax v hv')).symm
    | some m =>
      obtain ⟨a, b⟩ := clipLevel_bounds hv he0.le he ht hc
      refine ⟨m, a, b, fun hd => ?_, rfl, rfl⟩
      unfold clipLevel at hc
      rw [if_neg hd] at hc
      cases hc
  unfold transformFunctionValues
  simp only [hL4, hL5]
  cases hs : C.scaling with
  | off =>
    refine ⟨id, L, strictMonoOn_id, hL1, hL2, hL3, ?_, rfl, .inl rfl, fun _ _ => rfl⟩
    simp
  | affine =>
    simp only
    have hd : 0 < (if L - fmin > C.epsZero then L - fmin else 1) := by
      split
      · linarith
      · norm_num
    refine ⟨fun x => (x - fmin) / (if L - fmin > C.epsZero then L - fmin else 1), L, ?_, hL1, hL2,
      hL3, ?_, ?_, ?_, fun _ _ => rfl⟩
    · intro x _ y _ hxy
      simp only
      rw [div_lt_div_iff_of_pos_right hd]; linarith
    · rw [List.map_map]; rfl
    · simp
    · by_cases hL : L - fmin > C.epsZero
      · left
        have hne : L - fmin ≠ 0 := by linarith
        simp only [if_pos hL]
        rw [div_self hne]
      · right
        rw [if_neg hL]
        exact ⟨trivial, not_lt.mp hL, by simp⟩
  | log =>
    simp only
    obtain ⟨s0, s1⟩ := logShift_pos hv he0
    have hlog : ∀ x, fmin ≤ x → npLog (x + logShift C vals errs) =
        some (Real.log (x + logShift C vals errs)) := by
      intro x hx
      unfold npLog
      rw [if_pos (by linarith)]
    refine ⟨fun x => Real.log (x + logShift C vals errs), L, ?_, hL1, hL2, hL3, ?_, hlog _ le_rfl,
      .inl (hlog _ hL1), ?_⟩
    · intro x hx y _ hxy
      simp only [Set.mem_Ici] at hx
      exact Real.log_lt_log (by linarith) (by linarith)
    · rw [List.map_map]
      apply List.map_congr_left
      intro v hv'
      exact hlog _ (le_min (hv.fmin_le v hv') hL1)
    · intro x hx
      rw [if_pos (by linarith)]
      exact hlog x hx

/-- **C41** In elementary terms: a value that is not larger is not scaled to a larger value; the
smallest value is scaled to the scaled minimum and no scaled value is below it; unless clipping is
triggered, different values are scaled to different values in the same order, and rescaling a node
value again gives its scaled value. -/
theorem C41_elementary {C : ScalingCfg} {vals : List ℝ} {errs : List (ℝ × ℝ)} {fmin fmax : ℝ}
    (hv : FvOk vals errs fmin fmax) (he0 : 0 < C.epsZero) (he : C.epsZero < 1)
    (ht : C.clipping = .clipAtDyn → 1 ≤ C.threshold) {t : Tfv}
    (h : t = transformFunctionValues C vals fmin fmax errs) :
    t.vals.length = vals.length ∧
    ∀ (i : ℕ) v, vals[i]? = some v → ∃ s m, t.vals[i]? = some (some s) ∧ t.fmin = some m ∧ m ≤ s ∧
      (v = fmin → s = m) ∧
      (¬ WideRange C fmin fmax → t.rescale v = some s) ∧
      ∀ (j : ℕ) w, vals[j]? = some w → ∃ r, t.vals[j]? = some (some r) ∧ (v ≤ w → s ≤ r) ∧
        (¬ WideRange C fmin fmax → v < w → s < r) := by
  obtain ⟨g, L, hg, h1, h2, h3, e1, e2, -, e3⟩ := C41_order_preserved hv he0 he ht
  rw [← h] at e1 e2 e3
  refine ⟨by rw [e1, List.length_map], fun i v hi => ?_⟩
  have hmem := List.mem_of_getElem? hi
  have hfv := hv.fmin_le v hmem
  refine ⟨g (min v L), g fmin, by rw [e1, List.getElem?_map, hi]; rfl, e2, ?_, ?_, ?_, ?_⟩
  · exact hg.monotoneOn (Set.mem_Ici.mpr le_rfl) (Set.mem_Ici.mpr (le_min hfv h1)) (le_min hfv h1)
  · rintro rfl; rw [min_eq_left h1]
  · intro hd
    rw [e3 v hfv, h3 hd, min_eq_left (hv.le_fmax v hmem)]
  · intro j w hj
    have hmem' := List.mem_of_getElem? hj
    have hfw := hv.fmin_le w hmem'
    refine ⟨g (min w L), by rw [e1, List.getElem?_map, hj]; rfl, ?_, ?_⟩
    · intro hvw
      exact hg.monotoneOn (Set.mem_Ici.mpr (le_min hfv h1)) (Set.mem_Ici.mpr (le_min hfw h1))
        (min_le_min_right L hvw)
    · intro hd hvw
      rw [h3 hd, min_eq_left (hv.le_fmax v hmem), min_eq_left (hv.le_fmax w hmem')]
      exact hg (Set.mem_Ici.mpr hfv) (Set.mem_Ici.mpr hfw) hvw

/-- **C41** Affine scaling maps the values into `[0,1]`, the minimum to 0 and the (clipped) maximum to
1, whenever they differ by more than `eps_zero`. -/
theorem C41_affine_range {C : ScalingCfg} {vals : List ℝ} {errs : List (ℝ × ℝ)} {fmin fmax : ℝ}
    (hs : C.scaling = .affine) (hv : FvOk vals errs fmin fmax) (he0 : 0 < C.epsZero)
    (hd : ¬ WideRange C fmin fmax) (hf : C.epsZero < fmax - fmin) :
    (transformFunctionValues C vals fmin fmax errs).fmin = some 0 ∧
    (transformFunctionValues C vals fmin fmax errs).fmax = some 1 ∧
    (transformFunctionValues C vals fmin fmax errs).vals =
      vals.map (fun v => some ((v - fmin) / (fmax - fmin))) ∧
    ∀ v ∈ vals, 0 ≤ (v - fmin) / (fmax - fmin) ∧ (v - fmin) / (fmax - fmin) ≤ 1 := by
  rw [wideRange_iff he0] at hd
  have hc : clipLevel C vals fmin fmax = none := by unfold clipLevel; rw [if_neg hd]
  have hp : 0 < fmax - fmin := by linarith
  unfold transformFunctionValues
  simp only [hs, hc, clippedFmax]
  have hf' : fmax - fmin > C.epsZero := hf
  simp only [if_pos hf']
  refine ⟨trivial, trivial, ?_, fun v hv' => ⟨div_nonneg ?_ hp.le, ?_⟩⟩
  · rw [List.map_map]; rfl
  · linarith [hv.fmin_le v hv']
  · rw [div_le_one hp]; linarith [hv.le_fmax v hv']

/-- Logarithmic scaling without clipping, as used in the examples below. -/
noncomputable def demoScaling (cl : Clipping) (sc : FunScaling) (thr : ℝ) : ScalingCfg :=
  { clipping := cl, scaling := sc, epsZero := 1/1000000, threshold := thr }

-- premises of the theorems above
example : FvOk [3, 1, 2] [(0, 0), (-1, 2), (0, 0)] 1 3 ∧ 0 < (demoScaling .median .log 1000).epsZero ∧
    (demoScaling .median .log 1000).epsZero < 1 ∧
    ¬ WideRange (demoScaling .median .affine 1000) 1 3 := by
  refine ⟨⟨rfl, ?_, by simp, ?_, by simp, ?_⟩, ?_, ?_, ?_⟩
  · intro e he
    simp only [List.mem_cons, List.not_mem_nil, or_false] at he
    rcases he with rfl | rfl | rfl <;> norm_num
  · intro e he
    simp only [List.mem_cons, List.not_mem_nil, or_false] at he
    rcases he with rfl | rfl | rfl <;> norm_num
  · intro e he
    simp only [List.mem_cons, List.not_mem_nil, or_false] at he
    rcases he with rfl | rfl | rfl <;> norm_num
  · norm_num [demoScaling]
  · norm_num [demoScaling]
  · unfold WideRange demoScaling
    norm_num

/-- **C41** (violation) With logarithmic scaling the returned rescaling function is not monotone
below the smallest node value: with node values 1 and 2 a new value 0 is rescaled to 0, above the
rescaled value of 1/2 and equal to the scaled minimum, so that a step from value 1 to value 0 counts
as no improvement at all. -/
theorem C41_violated_log_rescale : ∃ r s : ℝ,
    (transformFunctionValues (demoScaling .off .log 1000) [1, 2] 1 2 [(0, 0), (0, 0)]).rescale 0 =
      some r ∧
    (transformFunctionValues (demoScaling .off .log 1000) [1, 2] 1 2 [(0, 0), (0, 0)]).rescale (1/2) =
      some s ∧ s < r ∧
    (transformFunctionValues (demoScaling .off .log 1000) [1, 2] 1 2 [(0, 0), (0, 0)]).fmin =
      some r := by
  have hsh : logShift (demoScaling .off .log 1000) [1, 2] [(0, 0), (0, 0)] = 0 := by
    unfold logShift
    norm_num [amin]
  have hs : (demoScaling .off .log 1000).scaling = .log := rfl
  refine ⟨0, Real.log (1/2), ?_, ?_, ?_, ?_⟩
  · unfold transformFunctionValues
    simp only [hs, hsh]
    norm_num
  · unfold transformFunctionValues
    simp only [hs, hsh]
    norm_num [npLog]
  · exact Real.log_neg (by norm_num) (by norm_num)
  · unfold transformFunctionValues
    simp only [hs, hsh]
    norm_num [npLog]

/-- **C41** (violation) With logarithmic scaling and clipping at the median the scaled error interval
of a noisy node can be undefined (logarithm of a negative number): values 1, 1 and 5000, the last one
with error interval (-50, 50). -/
theorem C41_violated_log_errors :
    ((transformFunctionValues (demoScaling .median .log 1000) [1, 1, 5000] 1 5000
      [(0, 0), (0, 0), (-50, 50)]).errs[2]?.map Prod.fst) = some none := by
  have hsort : ([1, 1, 5000] : List ℝ).insertionSort (· ≤ ·) = [1, 1, 5000] := by
    simp [List.insertionSort]
  have hmed : median [1, 1, 5000] = 1 := by
    unfold median; rw [hsort]; norm_num
  have hlev : clipLevel (demoScaling .median .log 1000) [1, 1, 5000] 1 5000 = some 1 := by
    unfold clipLevel
    rw [if_pos (by unfold dynamismHigh demoScaling; refine ⟨by simp, ?_⟩; norm_num)]
    simp only [demoScaling, hmed]
  have hsh : logShift (demoScaling .median .log 1000) [1, 1, 5000] [(0, 0), (0, 0), (-50, 50)] =
      0 := by
    unfold logShift
    norm_num [amin]
  unfold transformFunctionValues
  rw [hlev]
  have hs : (demoScaling .median .log 1000).scaling = .log := rfl
  simp only [hs, hsh]
  norm_num [npLog, clipAt]

/-- **C41** (violation) With `clip_at_dyn` and a threshold below one, all values are clipped below the
minimum: the scaled minimum exceeds every scaled value. -/
theorem C41_violated_small_threshold :
    (transformFunctionValues (demoScaling .clipAtDyn .off (1/2)) [1, 3] 1 3
      [(0, 0), (0, 0)]).fmin = some 1 ∧
    (transformFunctionValues (demoScaling .clipAtDyn .off (1/2)) [1, 3] 1 3
      [(0, 0), (0, 0)]).vals = [some (1/2), some (1/2)] := by
  have hlev : clipLevel (demoScaling .clipAtDyn .off (1/2)) [1, 3] 1 3 = some (1/2) := by
    unfold clipLevel
    rw [if_pos (by unfold dynamismHigh demoScaling; refine ⟨by simp, ?_⟩; norm_num)]
    simp only [demoScaling]
    norm_num
  unfold transformFunctionValues
  rw [hlev]
  simp only [demoScaling]
  norm_num [clipAt]

/-- **C41** (violation) When values are clipped, rescaling a node value again does not give its
scaled value. -/
theorem C41_violated_clipped_rescale : ∃ s : ℝ,
    (transformFunctionValues (demoScaling .clipAtDyn .off 1000) [1, 5000] 1 5000
      [(0, 0), (0, 0)]).vals = [some 1, some s] ∧
    (transformFunctionValues (demoScaling .clipAtDyn .off 1000) [1, 5000] 1 5000
      [(0, 0), (0, 0)]).rescale 5000 ≠ some s := by
  have hlev : clipLevel (demoScaling .clipAtDyn .off 1000) [1, 5000] 1 5000 = some 1000 := by
    unfold clipLevel
    rw [if_pos (by unfold dynamismHigh demoScaling; refine ⟨by simp, ?_⟩; norm_num)]
    simp only [demoScaling]
    norm_num
  refine ⟨1000, ?_, ?_⟩
  · unfold transformFunctionValues
    rw [hlev]
    simp only [demoScaling]
    norm_num [clipAt]
  · unfold transformFunctionValues
    simp only [demoScaling]
    norm_num

end Rbfopt
