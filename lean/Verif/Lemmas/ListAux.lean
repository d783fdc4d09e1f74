import Verif.Spec.Records
import Verif.Model.Serial

/-! # Lemmas on lists and argmin -/

namespace Rbfopt

theorem argminVal_none {α : Type} [LE α] [DecidableLE α] {l : List α} :
    argminVal l = none ↔ l = [] := by
  cases l with
  | nil => simp [argminVal]
  | cons x xs =>
    simp only [argminVal, reduceCtorEq, iff_false]
    split
    · simp
    · split <;> simp

theorem argmaxVal_none {α : Type} [LE α] [DecidableLE α] {l : List α} :
    argmaxVal l = none ↔ l = [] := by
  cases l with
  | nil => simp [argmaxVal]
  | cons x xs =>
    simp only [argmaxVal, reduceCtorEq, iff_false]
    split
    · simp
    · split <;> simp

theorem argminVal_some {α : Type} [LinearOrder α] {l : List α} {v : α} {i : ℕ}
    (h : argminVal l = some (v, i)) :
    l[i]? = some v ∧ (∀ w ∈ l, v ≤ w) ∧ ∀ (j : ℕ) (w : α), j < i → l[j]? = some w → v < w := by
  induction l generalizing v i with
  | nil => simp [argminVal] at h
  | cons x xs ih =>
    simp only [argminVal] at h
    split at h
    · rename_i hn
      rw [argminVal_none] at hn
      subst hn
      simp only [Option.some.injEq, Prod.mk.injEq] at h
      obtain ⟨rfl, rfl⟩ := h
      simp
    · rename_i w j hs
      obtain ⟨h1, h2, h3⟩ := ih hs
      split at h
      · rename_i hle
        simp only [Option.some.injEq, Prod.mk.injEq] at h
        obtain ⟨rfl, rfl⟩ := h
        refine ⟨by simp, ?_, by simp⟩
        intro y hy
        rcases List.mem_cons.mp hy with rfl | hy
        · exact le_refl _
        · exact hle.trans (h2 y hy)
      · rename_i hle
        simp only [Option.some.injEq, Prod.mk.injEq] at h
        obtain ⟨rfl, rfl⟩ := h
        refine ⟨by simpa using h1, ?_, ?_⟩
        · intro y hy
          rcases List.mem_cons.mp hy with rfl | hy
          · exact (not_le.mp hle).le
          · exact h2 y hy
        · intro k y hk hy
          cases k with
          | zero => simp at hy; subst hy; exact not_le.mp hle
          | succ k => exact h3 k y (by omega) (by simpa using hy)

theorem argmaxVal_some {α : Type} [LinearOrder α] {l : List α} {v : α} {i : ℕ}
    (h : argmaxVal l = some (v, i)) :
    l[i]? = some v ∧ (∀ w ∈ l, w ≤ v) ∧ ∀ (j : ℕ) (w : α), j < i → l[j]? = some w → w < v := by
  induction l generalizing v i with
  | nil => simp [argmaxVal] at h
  | cons x xs ih =>
    simp only [argmaxVal] at h
    split at h
    · rename_i hn
      rw [argmaxVal_none] at hn
      subst hn
      simp only [Option.some.injEq, Prod.mk.injEq] at h
      obtain ⟨rfl, rfl⟩ := h
      simp
    · rename_i w j hs
      obtain ⟨h1, h2, h3⟩ := ih hs
      split at h
      · rename_i hle
        simp only [Option.some.injEq, Prod.mk.injEq] at h
        obtain ⟨rfl, rfl⟩ := h
        refine ⟨by simp, ?_, by simp⟩
        intro y hy
        rcases List.mem_cons.mp hy with rfl | hy
        · exact le_refl _
        · exact (h2 y hy).trans hle
      · rename_i hle
        simp only [Option.some.injEq, Prod.mk.injEq] at h
        obtain ⟨rfl, rfl⟩ := h
        refine ⟨by simpa using h1, ?_, ?_⟩
        · intro y hy
          rcases List.mem_cons.mp hy with rfl | hy
          · exact (not_le.mp hle).le
          · exact h2 y hy
        · intro k y hk hy
          cases k with
          | zero => simp at hy; subst hy; exact not_le.mp hle
          | succ k => exact h3 k y (by omega) (by simpa using hy)

theorem argminVal_exists {α : Type} [LE α] [DecidableLE α] {l : List α} (h : l ≠ []) :
    ∃ v i, argminVal l = some (v, i) := by
  cases hl : argminVal l with
  | none => exact absurd (argminVal_none.mp hl) h
  | some p => exact ⟨p.1, p.2, rfl⟩

theorem argmaxVal_exists {α : Type} [LE α] [DecidableLE α] {l : List α} (h : l ≠ []) :
    ∃ v i, argmaxVal l = some (v, i) := by
  cases hl : argmaxVal l with
  | none => exact absurd (argmaxVal_none.mp hl) h
  | some p => exact ⟨p.1, p.2, rfl⟩

theorem getMinDistance_none {dist : Pt → Pt → ℚ} {p : Pt} {l : List Pt} :
    getMinDistance dist p l = none ↔ l = [] := by
  simp [getMinDistance, argminVal_none]

theorem getMinDistance_some {dist : Pt → Pt → ℚ} {p : Pt} {l : List Pt} {d : ℚ}
    (h : getMinDistance dist p l = some d) :
    (∃ q ∈ l, dist p q = d) ∧ ∀ q ∈ l, d ≤ dist p q := by
  simp only [getMinDistance, Option.map_eq_some_iff, Prod.exists, exists_and_right,
    exists_eq_right] at h
  obtain ⟨i, hi⟩ := h
  obtain ⟨h1, h2, _⟩ := argminVal_some hi
  constructor
  · have := List.mem_of_getElem? h1
    simpa using this
  · intro q hq
    exact h2 _ (List.mem_map_of_mem hq)

theorem getMinDistance_gt {dist : Pt → Pt → ℚ} {p : Pt} {l : List Pt} {d m : ℚ}
    (h : getMinDistance dist p l = some d) (hm : m < d) : ∀ q ∈ l, m < dist p q :=
  fun q hq => lt_of_lt_of_le hm ((getMinDistance_some h).2 q hq)

theorem getMinDistanceAndIndex_some {dist : Pt → Pt → ℚ} {p : Pt} {l : List Pt} {d : ℚ} {i : ℕ}
    (h : getMinDistanceAndIndex dist p l = some (d, i)) :
    ∃ q, l[i]? = some q ∧ dist p q = d ∧ ∀ q' ∈ l, d ≤ dist p q' := by
  obtain ⟨h1, h2, _⟩ := argminVal_some h
  simp only [List.getElem?_map, Option.map_eq_some_iff] at h1
  obtain ⟨q, hq, hd⟩ := h1
  exact ⟨q, hq, hd, fun q' hq' => h2 _ (List.mem_map_of_mem hq')⟩

theorem getMaxDistanceAndIndex_some {dist : Pt → Pt → ℚ} {p : Pt} {l : List Pt} {d : ℚ} {i : ℕ}
    (h : getMaxDistanceAndIndex dist p l = some (d, i)) :
    ∃ q, l[i]? = some q ∧ dist p q = d ∧ ∀ q' ∈ l, dist p q' ≤ d := by
  obtain ⟨h1, h2, _⟩ := argmaxVal_some h
  simp only [List.getElem?_map, Option.map_eq_some_iff] at h1
  obtain ⟨q, hq, hd⟩ := h1
  exact ⟨q, hq, hd, fun q' hq' => h2 _ (List.mem_map_of_mem hq')⟩

theorem drop_eraseIdx_add {α : Type} (l : List α) (n i : ℕ) :
    (l.eraseIdx (n + i)).drop n = (l.drop n).eraseIdx i := by
  induction n generalizing l with
  | zero => simp
  | succ n ih =>
    cases l with
    | nil => simp
    | cons x xs =>
      rw [show n + 1 + i = (n + i) + 1 by omega]
      simp [ih]

theorem forall₂_eraseIdx {α β : Type} {R : α → β → Prop} {l : List α} {m : List β} (i : ℕ)
    (h : List.Forall₂ R l m) : List.Forall₂ R (l.eraseIdx i) (m.eraseIdx i) := by
  induction h generalizing i with
  | nil => simp
  | cons hab hrest ih =>
    cases i with
    | zero => simpa using hrest
    | succ i => simpa using ⟨hab, ih i⟩

theorem Table.Aligned.append {a b : Table} (ha : a.Aligned) (hb : b.Aligned) :
    (a.append b).Aligned := by
  obtain ⟨a1, a2, a3⟩ := ha
  obtain ⟨b1, b2, b3⟩ := hb
  simp [Table.Aligned, Table.append, a1, a2, a3, b1, b2, b3]

theorem Table.Aligned.eraseIdx {a : Table} (ha : a.Aligned) (i : ℕ) : (a.eraseIdx i).Aligned := by
  obtain ⟨a1, a2, a3⟩ := ha
  simp [Table.Aligned, Table.eraseIdx, List.length_eraseIdx, a1, a2, a3]

theorem Table.aligned_nil : ({} : Table).Aligned := by simp [Table.Aligned]

@[simp] theorem countAcc_nil : countAcc [] = 0 := rfl
@[simp] theorem countNoisy_nil : countNoisy [] = 0 := rfl
@[simp] theorem countAcc_append (a b : List Call) : countAcc (a ++ b) = countAcc a + countAcc b := by
  simp [countAcc]
@[simp] theorem countNoisy_append (a b : List Call) :
    countNoisy (a ++ b) = countNoisy a + countNoisy b := by
  simp [countNoisy]
@[simp] theorem countAcc_acc (x : Pt) (v : ℚ) : countAcc [.acc x v] = 1 := by simp [countAcc]
@[simp] theorem countAcc_noisy (x : Pt) (v a b : ℚ) : countAcc [.noisy x v a b] = 0 := by
  simp [countAcc]
@[simp] theorem countNoisy_acc (x : Pt) (v : ℚ) : countNoisy [.acc x v] = 0 := by
  simp [countNoisy]
@[simp] theorem countNoisy_noisy (x : Pt) (v a b : ℚ) : countNoisy [.noisy x v a b] = 1 := by
  simp [countNoisy]

end Rbfopt
