import Verif.Model.Numpy
import Mathlib.Data.List.Basic
import Mathlib.Data.List.Nodup
import Mathlib.Data.List.GetD
import Mathlib.Data.List.InsertIdx

/-! # Facts about the numpy operations -/

namespace Rbfopt

variable {α β : Type}

theorem mem_whereFrom {p : α → Bool} {k i : ℕ} {l : List α} :
    i ∈ whereFrom p k l ↔ k ≤ i ∧ ∃ x, l[i - k]? = some x ∧ p x = true := by
  induction l generalizing k with
  | nil => simp [whereFrom]
  | cons x xs ih =>
    have key : i ∈ whereFrom p (k + 1) xs ↔
        k + 1 ≤ i ∧ ∃ y, (x :: xs)[i - k]? = some y ∧ p y = true := by
      rw [ih]
      constructor
      · rintro ⟨h, y, hy, hp⟩
        refine ⟨h, y, ?_, hp⟩
        rw [show i - k = (i - (k + 1)) + 1 by omega, List.getElem?_cons_succ]; exact hy
      · rintro ⟨h, y, hy, hp⟩
        rw [show i - k = (i - (k + 1)) + 1 by omega, List.getElem?_cons_succ] at hy
        exact ⟨h, y, hy, hp⟩
    unfold whereFrom
    split
    · rename_i hp
      rw [List.mem_cons, key]
      constructor
      · rintro (rfl | ⟨h, y, hy⟩)
        · exact ⟨le_rfl, x, by simp, hp⟩
        · exact ⟨by omega, y, hy⟩
      · rintro ⟨h, y, hy, hpy⟩
        by_cases e : i = k
        · exact Or.inl e
        · exact Or.inr ⟨by omega, y, hy, hpy⟩
    · rename_i hp
      rw [key]
      constructor
      · rintro ⟨h, y, hy⟩; exact ⟨by omega, y, hy⟩
      · rintro ⟨h, y, hy, hpy⟩
        by_cases e : i = k
        · subst e; simp at hy; subst hy; exact absurd hpy hp
        · exact ⟨by omega, y, hy, hpy⟩

theorem mem_where {p : α → Bool} {i : ℕ} {l : List α} :
    i ∈ whereFrom p 0 l ↔ ∃ x, l[i]? = some x ∧ p x = true := by
  rw [mem_whereFrom]; simp

theorem whereFrom_ge {p : α → Bool} {k i : ℕ} {l : List α} (h : i ∈ whereFrom p k l) : k ≤ i :=
  (mem_whereFrom.mp h).1

theorem whereFrom_sorted (p : α → Bool) (k : ℕ) (l : List α) :
    (whereFrom p k l).Pairwise (· < ·) := by
  induction l generalizing k with
  | nil => simp [whereFrom]
  | cons x xs ih =>
    unfold whereFrom
    split
    · rw [List.pairwise_cons]
      exact ⟨fun a ha => by have := whereFrom_ge ha; omega, ih _⟩
    · exact ih _

theorem whereFrom_nodup (p : α → Bool) (k : ℕ) (l : List α) : (whereFrom p k l).Nodup :=
  (whereFrom_sorted p k l).imp (fun h => Nat.ne_of_lt h)

theorem where_lt {p : α → Bool} {i : ℕ} {l : List α} (h : i ∈ whereFrom p 0 l) : i < l.length := by
  obtain ⟨x, hx, -⟩ := mem_where.mp h
  exact (List.getElem?_eq_some_iff.mp hx).1

theorem whereFrom_map (p : β → Bool) (f : α → β) (k : ℕ) (l : List α) :
    whereFrom p k (l.map f) = whereFrom (fun x => p (f x)) k l := by
  induction l generalizing k with
  | nil => rfl
  | cons x xs ih => simp only [List.map_cons, whereFrom, ih]

theorem whereFrom_congr {p q : α → Bool} {k : ℕ} {l : List α} (h : ∀ x ∈ l, p x = q x) :
    whereFrom p k l = whereFrom q k l := by
  induction l generalizing k with
  | nil => rfl
  | cons x xs ih =>
    simp only [whereFrom]
    rw [h x (by simp), ih (fun y hy => h y (by simp [hy]))]

theorem length_whereFrom (p : α → Bool) (k : ℕ) (l : List α) :
    (whereFrom p k l).length = l.countP p := by
  induction l generalizing k with
  | nil => rfl
  | cons x xs ih =>
    simp only [whereFrom, List.countP_cons]
    split
    · rename_i h; simp [ih]
    · rename_i h; simp [ih]

theorem gather_whereFrom (d : α) (p : α → Bool) (pre l : List α) :
    gather d (pre ++ l) (whereFrom p pre.length l) = l.filter p := by
  induction l generalizing pre with
  | nil => rfl
  | cons x xs ih =>
    have h1 := ih (pre ++ [x])
    simp only [List.length_append, List.length_singleton, List.append_assoc,
      List.singleton_append] at h1
    simp only [whereFrom, List.filter_cons]
    split
    · rename_i hp
      simp only [gather, List.map_cons]
      rw [show List.map (fun i => (pre ++ x :: xs).getD i d) (whereFrom p (pre.length + 1) xs) = _
        from h1]
      simp
    · exact h1

theorem gather_where (d : α) (p : α → Bool) (l : List α) :
    gather d l (whereFrom p 0 l) = l.filter p := by
  have := gather_whereFrom d p [] l
  simpa using this

/-- Positions not selected by `p` are those selected by its negation. -/
theorem range_filter_not_where (p : α → Bool) (l : List α) :
    (List.range l.length).filter (fun i => decide (i ∉ whereFrom p 0 l)) =
      whereFrom (fun x => !p x) 0 l := by
  have aux : ∀ (pre : List ℕ) (k : ℕ) (l : List α), (∀ i ∈ pre, i < k) →
      (List.range' k l.length).filter (fun i => decide (i ∉ pre ++ whereFrom p k l)) =
        whereFrom (fun x => !p x) k l := by
    intro pre k l
    induction l generalizing pre k with
    | nil => simp [whereFrom]
    | cons x xs ih =>
      intro hpre
      rw [List.length_cons, List.range'_succ, List.filter_cons]
      simp only [whereFrom]
      have hk : k ∉ pre := fun h => by have := hpre k h; omega
      have hk' : k ∉ whereFrom p (k + 1) xs := fun h => by have := whereFrom_ge h; omega
      by_cases hp : p x = true
      · simp only [hp, if_true]
        have := ih (pre ++ [k]) (k + 1) (by
          intro i hi; simp at hi; rcases hi with hi | hi
          · have := hpre i hi; omega
          · omega)
        simp only [List.append_assoc, List.singleton_append] at this
        simpa using this
      · simp only [hp]
        have := ih pre (k + 1) (by intro i hi; have := hpre i hi; omega)
        have hp' : p x = false := by simpa using hp
        simp only [Bool.false_eq_true, if_false, List.mem_append, hk, hk', or_self,
          not_false_eq_true, decide_true, if_true, hp', Bool.not_false]
        rw [← this]
        simp only [List.mem_append]
  have := aux [] 0 l (by simp)
  rw [List.nil_append] at this
  rw [List.range_eq_range']; exact this

theorem length_scatter (a : List α) (idx : List ℕ) (vals : List α) :
    (scatter a idx vals).length = a.length := by
  induction idx generalizing a vals with
  | nil => cases vals <;> rfl
  | cons i is ih =>
    cases vals with
    | nil => rfl
    | cons v vs => simp only [scatter, ih, List.length_set]

theorem scatter_notMem {a : List α} {idx : List ℕ} {vals : List α} {i : ℕ} (h : i ∉ idx) :
    (scatter a idx vals)[i]? = a[i]? := by
  induction idx generalizing a vals with
  | nil => cases vals <;> rfl
  | cons j js ih =>
    cases vals with
    | nil => rfl
    | cons v vs =>
      simp only [List.mem_cons, not_or] at h
      simp only [scatter]
      rw [ih h.2, List.getElem?_set_ne (Ne.symm h.1)]

theorem scatter_get {a : List α} {idx : List ℕ} {vals : List α} (hn : idx.Nodup)
    (hl : vals.length = idx.length) (hb : ∀ i ∈ idx, i < a.length) {k i : ℕ}
    (hk : idx[k]? = some i) : (scatter a idx vals)[i]? = vals[k]? := by
  induction idx generalizing a vals k with
  | nil => simp at hk
  | cons j js ih =>
    cases vals with
    | nil => simp at hl
    | cons v vs =>
      simp only [scatter]
      rw [List.nodup_cons] at hn
      cases k with
      | zero =>
        simp only [List.getElem?_cons_zero, Option.some.injEq] at hk ⊢
        subst hk
        rw [scatter_notMem hn.1, List.getElem?_set_self (hb j (by simp))]
      | succ k =>
        simp only [List.getElem?_cons_succ] at hk ⊢
        exact ih hn.2 (by simpa using hl) (fun i hi => by
          rw [List.length_set]; exact hb i (by simp [hi])) hk

theorem length_gather (d : α) (a : List α) (idx : List ℕ) : (gather d a idx).length = idx.length := by
  simp [gather]

theorem getElem?_gather {d : α} {a : List α} {idx : List ℕ} {k i : ℕ} (hk : idx[k]? = some i)
    (hi : i < a.length) : (gather d a idx)[k]? = a[i]? := by
  simp [gather, hk, List.getD_eq_getElem?_getD, List.getElem?_eq_getElem hi]

theorem gather_range (d : α) (a pre post : List α) :
    gather d (pre ++ a ++ post) (List.range' pre.length a.length) = a := by
  induction a generalizing pre with
  | nil => rfl
  | cons x xs ih =>
    rw [List.length_cons, List.range'_succ]
    simp only [gather, List.map_cons]
    have := ih (pre ++ [x])
    simp only [List.append_assoc, List.length_append, List.length_singleton,
      List.nil_append, gather, List.cons_append] at this
    simp only [List.append_assoc, List.cons_append]
    rw [this]
    simp

theorem gather_range_self (d : α) (a : List α) : gather d a (List.range' 0 a.length) = a := by
  have := gather_range d a [] []
  simpa using this

theorem take_drop_gather (d : α) (q : List α) (c m : ℕ) (h : c + m ≤ q.length) :
    gather d q (List.range' c m) = (q.drop c).take m := by
  have h1 : q = q.take c ++ (q.drop c).take m ++ (q.drop c).drop m := by
    rw [List.append_assoc, List.take_append_drop, List.take_append_drop]
  have h2 : (q.take c).length = c := by rw [List.length_take]; omega
  have h3 : ((q.drop c).take m).length = m := by rw [List.length_take, List.length_drop]; omega
  have := gather_range d ((q.drop c).take m) (q.take c) ((q.drop c).drop m)
  rw [← h1, h2, h3] at this
  exact this

end Rbfopt
