import Verif.Model.Nan
import Mathlib.Tactic.Linarith

/-!
# C65: objective values that are NaN
-/

namespace Rbfopt

theorem npArgmin_nan {l : List Flt} (h : Flt.nan ∈ l) :
    ∃ i : ℕ, npArgmin l = some (.nan, i) ∧ l[i]? = some .nan ∧ ∀ j < i, l[j]? ≠ some .nan := by
  induction l with
  | nil => simp at h
  | cons x xs ih =>
    cases x with
    | nan => exact ⟨0, rfl, rfl, by simp⟩
    | num x =>
      obtain ⟨i, h1, h2, h3⟩ := ih (by simpa using h)
      refine ⟨i + 1, ?_, by simpa using h2, ?_⟩
      · simp [npArgmin, h1]
      · intro j hj
        cases j with
        | zero => simp
        | succ j => simpa using h3 j (by omega)

theorem npArgmin_num {l : List Flt} (h : Flt.nan ∉ l) (hl : l ≠ []) :
    ∃ (i : ℕ) (x : EVal), npArgmin l = some (.num x, i) ∧ l[i]? = some (.num x) ∧
      ∀ y : EVal, Flt.num y ∈ l → x ≤ y := by
  induction l with
  | nil => simp at hl
  | cons a xs ih =>
    cases a with
    | nan => simp at h
    | num x =>
      by_cases hx : xs = []
      · subst hx
        exact ⟨0, x, rfl, rfl, by simp⟩
      · obtain ⟨i, y, h1, h2, h3⟩ := ih (fun h' => h (List.mem_cons_of_mem _ h')) hx
        simp only [npArgmin, h1]
        by_cases hxy : x ≤ y
        · rw [if_pos hxy]
          refine ⟨0, x, rfl, rfl, ?_⟩
          intro z hz
          rcases List.mem_cons.mp hz with hz | hz
          · injection hz with hz; exact hz.ge
          · exact hxy.trans (h3 z hz)
        · rw [if_neg hxy]
          refine ⟨i + 1, y, rfl, by simpa using h2, ?_⟩
          intro z hz
          rcases List.mem_cons.mp hz with hz | hz
          · injection hz with hz; subst hz; exact (not_le.mp hxy).le
          · exact h3 z hz

theorem npMax_nan {l : List Flt} (h : Flt.nan ∈ l) : npMax l = some .nan := by
  induction l with
  | nil => simp at h
  | cons x xs ih =>
    cases x with
    | nan => rfl
    | num x => simp [npMax, ih (by simpa using h)]

theorem npMax_some {l : List Flt} (hl : l ≠ []) : ∃ M, npMax l = some M := by
  cases l with
  | nil => simp at hl
  | cons x xs =>
    cases x with
    | nan => exact ⟨_, rfl⟩
    | num x =>
      simp only [npMax]
      split <;> exact ⟨_, rfl⟩

theorem npArgmin_some {l : List Flt} (hl : l ≠ []) : ∃ r, npArgmin l = some r := by
  by_cases h : Flt.nan ∈ l
  · obtain ⟨i, h1, _⟩ := npArgmin_nan h; exact ⟨_, h1⟩
  · obtain ⟨i, x, h1, _⟩ := npArgmin_num h hl; exact ⟨_, h1⟩

@[simp] theorem add_all (s : ValState) (v : Flt) : (s.add v).all = s.all ++ [v] := by
  unfold ValState.add; dsimp only; split <;> split <;> rfl

theorem restart_all {s t : ValState} {vs : List Flt} (h : s.restart vs = some t) :
    t.all = s.all ++ vs := by
  unfold ValState.restart at h
  split at h
  · dsimp only at h
    cases h
    split <;> rfl
  · cases h

/-- The records are the values of the events, in order. -/
theorem exec_all {s t : ValState} {es : List ValEvent} (h : s.exec es = some t) :
    t.all = s.all ++ eventValues es := by
  induction es generalizing s with
  | nil => cases h; simp [eventValues]
  | cons e es ih =>
    simp only [ValState.exec] at h
    split at h
    · cases h
    · rename_i s1 h1
      rw [ih h]
      cases e with
      | add v => cases h1; simp [eventValues]
      | restart vs => rw [restart_all h1]; simp [eventValues]

/-- **C65** (violation) Whatever the history, as soon as one value is NaN (in a sample or in an
iteration), the record that `optimize()` returns is the first NaN: every number found before or after
is lost to the caller. -/
theorem C65_violated_returned_nan {t : ValState} {es : List ValEvent}
    (h : ValState.exec {} es = some t) (hn : Flt.nan ∈ eventValues es) :
    ∃ i : ℕ, t.returned = some (.nan, i) ∧ (eventValues es)[i]? = some .nan ∧
      ∀ j < i, (eventValues es)[j]? ≠ some .nan := by
  have := exec_all h
  simp only [List.nil_append] at this
  unfold ValState.returned
  rw [this]
  exact npArgmin_nan hn

/-- What is tracked as the best value: `+inf` if no finite number was recorded, else the least number,
with the position of a record having it. -/
def TracksNumbers (s : ValState) : Prop :=
  ∃ b : EVal, s.fbest = .num b ∧ (∀ y : EVal, Flt.num y ∈ s.all → b ≤ y) ∧
    (b ≠ ⊤ → s.all[s.fbestIdx]? = some (.num b))

theorem TracksNumbers.init : TracksNumbers {} := ⟨⊤, rfl, by simp, by simp⟩

theorem TracksNumbers.add {s : ValState} (h : TracksNumbers s) (v : Flt) :
    TracksNumbers (s.add v) := by
  obtain ⟨b, h1, h2, h3⟩ := h
  have keep : b ≠ ⊤ → (s.all ++ [v])[s.fbestIdx]? = some (Flt.num b) := by
    intro hb
    have := h3 hb
    rw [List.getElem?_append_left (List.getElem?_eq_some_iff.mp this).1]
    exact this
  cases v with
  | nan =>
    refine ⟨b, ?_, ?_, ?_⟩
    · simp [ValState.add, Flt.lt, h1]
    · intro y hy; rw [add_all] at hy; exact h2 y (by simpa using hy)
    · intro hb; rw [add_all]
      simpa [ValState.add, Flt.lt] using keep hb
  | num x =>
    by_cases hx : x < b
    · refine ⟨x, ?_, ?_, ?_⟩
      · unfold ValState.add; dsimp only
        split <;> simp [Flt.lt, h1, hx]
      · intro y hy; rw [add_all] at hy
        rcases List.mem_append.mp hy with hy | hy
        · exact hx.le.trans (h2 y hy)
        · simp only [List.mem_singleton, Flt.num.injEq] at hy; exact hy.ge
      · intro _; rw [add_all]
        unfold ValState.add; dsimp only
        split <;> simp [Flt.lt, h1, hx]
    · refine ⟨b, ?_, ?_, ?_⟩
      · unfold ValState.add; dsimp only
        split <;> simp [Flt.lt, h1, hx]
      · intro y hy; rw [add_all] at hy
        rcases List.mem_append.mp hy with hy | hy
        · exact h2 y hy
        · simp only [List.mem_singleton, Flt.num.injEq] at hy; rw [hy]; exact not_lt.mp hx
      · intro hb; rw [add_all]
        have : (s.add (.num x)).fbestIdx = s.fbestIdx := by
          unfold ValState.add; dsimp only
          split <;> simp [Flt.lt, h1, hx]
        rw [this]; exact keep hb

theorem TracksNumbers.restart {s t : ValState} {vs : List Flt} (h : TracksNumbers s)
    (hn : Flt.nan ∉ vs) (ht : s.restart vs = some t) : TracksNumbers t := by
  obtain ⟨b, h1, h2, h3⟩ := h
  have hall := restart_all ht
  have hvs : vs ≠ [] := by rintro rfl; cases ht
  obtain ⟨i, x, e1, e2, e3⟩ := npArgmin_num hn hvs
  obtain ⟨M, e4⟩ := npMax_some hvs
  unfold ValState.restart at ht
  rw [e1, e4] at ht
  dsimp only at ht
  by_cases hx : x < b
  · rw [if_pos (by simp [Flt.lt, h1, hx])] at ht
    cases ht
    refine ⟨x, rfl, ?_, ?_⟩
    · intro y hy
      rcases List.mem_append.mp hy with hy | hy
      · exact hx.le.trans (h2 y hy)
      · exact e3 y hy
    · intro _
      change (s.all ++ vs)[i + s.all.length]? = _
      rw [List.getElem?_append_right (by omega)]
      simpa using e2
  · rw [if_neg (by simp [Flt.lt, h1, hx])] at ht
    cases ht
    refine ⟨b, h1, ?_, ?_⟩
    · intro y hy
      rcases List.mem_append.mp hy with hy | hy
      · exact h2 y hy
      · exact (not_lt.mp hx).trans (e3 y hy)
    · intro hb
      have := h3 hb
      change (s.all ++ vs)[s.fbestIdx]? = _
      rw [List.getElem?_append_left (List.getElem?_eq_some_iff.mp this).1]
      exact this

/-- **C65** The best value tracked during the run (used for the gap and for the summary line) is not
disturbed by NaN values found in iterations: it is the least of the numbers recorded, provided that no
*sample* (initial or of a restart) contains a NaN. -/
theorem C65_tracked_best {t : ValState} {es : List ValEvent} (h : ValState.exec {} es = some t)
    (hn : Flt.nan ∉ sampleValues es) :
    ∃ b : EVal, t.fbest = .num b ∧ (∀ y : EVal, Flt.num y ∈ eventValues es → b ≤ y) ∧
      (b ≠ ⊤ → (eventValues es)[t.fbestIdx]? = some (.num b)) := by
  have key : ∀ (es : List ValEvent) (s : ValState), TracksNumbers s → s.exec es = some t →
      Flt.nan ∉ sampleValues es → TracksNumbers t := by
    intro es
    induction es with
    | nil => intro s hs h _; cases h; exact hs
    | cons e es ih =>
      intro s hs h hn
      simp only [ValState.exec] at h
      split at h
      · cases h
      · rename_i s1 h1
        cases e with
        | add v => cases h1; exact ih _ (hs.add v) h hn
        | restart vs =>
          simp only [sampleValues, List.mem_append, not_or] at hn
          exact ih _ (hs.restart hn.1 h1) h hn.2
  have := key es {} .init h hn
  have ha := exec_all h
  simp only [List.nil_append] at ha
  rwa [TracksNumbers, ha] at this

/-- **C65** Without NaN the returned record is a least one, its value the tracked best value. -/
theorem C65_without_nan {t : ValState} {es : List ValEvent} (h : ValState.exec {} es = some t)
    (hn : Flt.nan ∉ eventValues es) (hne : eventValues es ≠ []) :
    ∃ (b : EVal) (i : ℕ), t.returned = some (.num b, i) ∧ t.fbest = .num b ∧
      (eventValues es)[i]? = some (.num b) ∧ ∀ y : EVal, Flt.num y ∈ eventValues es → b ≤ y := by
  have hs : Flt.nan ∉ sampleValues es := by
    have : ∀ es : List ValEvent, ∀ v ∈ sampleValues es, v ∈ eventValues es := by
      intro es
      induction es with
      | nil => simp [sampleValues]
      | cons e es ih =>
        intro v hv
        cases e with
        | add w => exact List.mem_cons_of_mem _ (ih v hv)
        | restart vs =>
          rcases List.mem_append.mp hv with hv | hv
          · exact List.mem_append_left _ hv
          · exact List.mem_append_right _ (ih v hv)
    exact fun h => hn (this es _ h)
  obtain ⟨b, h1, h2, h3⟩ := C65_tracked_best h hs
  obtain ⟨i, x, e1, e2, e3⟩ := npArgmin_num hn hne
  have ha := exec_all h
  simp only [List.nil_append] at ha
  have hbx : b = x := by
    have l1 : b ≤ x := h2 x (List.mem_of_getElem? e2)
    by_cases hb : b = ⊤
    · subst hb; exact (top_le_iff.mp l1).symm
    · exact le_antisymm l1 (e3 b (List.mem_of_getElem? (h3 hb)))
  subst hbx
  exact ⟨b, i, by rw [ValState.returned, ha]; exact e1, h1, e2, e3⟩

/-- **C65** (violation) A sample with a NaN hides its numbers: the restart does not update the best
value, however good the other values of the sample are; the current minimum and maximum become NaN. -/
theorem C65_violated_sample_nan {s t : ValState} {vs : List Flt} (h : s.restart vs = some t)
    (hn : Flt.nan ∈ vs) :
    t.fbest = s.fbest ∧ t.fbestIdx = s.fbestIdx ∧ t.fmin = .nan ∧ t.fmax = .nan := by
  obtain ⟨i, h1, _⟩ := npArgmin_nan hn
  unfold ValState.restart at h
  rw [h1, npMax_nan hn] at h
  cases h
  exact ⟨rfl, rfl, rfl, rfl⟩

/-- **C65** (violation) After such a restart the current minimum and maximum stay NaN until the next
restart, whatever is evaluated. -/
theorem C65_violated_minimum_stuck {s t : ValState} (hm : s.fmin = .nan) (hM : s.fmax = .nan)
    {vs : List Flt} (h : s.exec (vs.map .add) = some t) :
    t.fmin = .nan ∧ t.fmax = .nan ∧ t.fminIdx = s.fminIdx := by
  induction vs generalizing s with
  | nil => cases h; exact ⟨hm, hM, rfl⟩
  | cons v vs ih =>
    simp only [List.map_cons, ValState.exec, ValState.step] at h
    have l1 : v.lt s.fmin = false := by rw [hm]; cases v <;> rfl
    have l2 : s.fmax.pyMax v = .nan := by rw [hM]; rfl
    have a : (s.add v).fmin = .nan ∧ (s.add v).fmax = .nan ∧ (s.add v).fminIdx = s.fminIdx := by
      unfold ValState.add
      dsimp only
      rw [l1, l2, if_neg (c := false = true) (by simp)]
      split <;> exact ⟨hm, rfl, rfl⟩
    obtain ⟨a1, a2, a3⟩ := a
    obtain ⟨b1, b2, b3⟩ := ih a1 a2 h
    exact ⟨b1, b2, b3.trans a3⟩

/-- A NaN in an iteration: the best number 1 is tracked, NaN is returned. -/
example : (ValState.exec {} [.restart [.num (3 : ℚ), .num (1 : ℚ)], .add .nan, .add (.num (2 : ℚ))]).map
    (fun t => (t.fbest, t.fbestIdx, t.returned)) = some (.num (1 : ℚ), 1, some (.nan, 2)) := by
  decide +kernel

/-- **C65** (violation) A NaN in the initial sample: the tracked best value 5 is not the least number,
which is 1, and NaN is returned. -/
theorem C65_violated_example :
    (ValState.exec {} [.restart [.num (1 : ℚ), .nan], .add (.num (5 : ℚ))]).map
      (fun t => (t.fbest, t.fmin, t.returned)) = some (.num (5 : ℚ), .nan, some (.nan, 1)) := by
  decide +kernel

example : ∃ t, ValState.exec {} [.restart [.num (3 : ℚ), .num (1 : ℚ)], .add (.num (0 : ℚ))] = some t ∧
    t.returned = some (.num (0 : ℚ), 2) := ⟨_, rfl, by decide +kernel⟩

end Rbfopt
