import Verif.Spec.AutoModel
import Verif.Props.Select

/-!
# C89: the surrogate model in use
-/

namespace Rbfopt

/-! ## one pass -/

theorem autoRun_append {c : AutoCfg} {s : AutoState} {es es' : List AutoEvent} :
    autoRun c s (es ++ es') = (autoRun c s es).bind (fun s' => autoRun c s' es') := by
  induction es generalizing s with
  | nil => rfl
  | cons e es ih =>
    rw [List.cons_append, autoRun, autoRun]
    cases autoEvent c s e with
    | none => rfl
    | some s' => exact ih

/-- A pass chooses and afterwards at most marks the last entries of the lists. -/
theorem autoEvent_pass {c : AutoCfg} {s s' : AutoState} {e : AutoEvent} {i : AutoIn}
    (hi : e.input = some i) (h : autoEvent c s e = some s') :
    s'.vol = (autoChoose c i s).vol ∧ s'.bestLocal = (autoChoose c i s).bestLocal ∧
    s'.bestGlobal = (autoChoose c i s).bestGlobal ∧
    (s'.localList = (autoChoose c i s).localList ∨
      ((autoChoose c i s).localList ≠ [] ∧ s'.localList = markFailed (autoChoose c i s).localList)) ∧
    (s'.globalList = (autoChoose c i s).globalList ∨
      ((autoChoose c i s).globalList ≠ [] ∧ s'.globalList = markFailed (autoChoose c i s).globalList)) := by
  cases e with
  | serialPass j =>
    cases hi
    cases h
    unfold autoSerial
    split
    · unfold autoFail
      split
      · rename_i h1
        exact ⟨rfl, rfl, rfl, .inr ⟨h1.2, rfl⟩, .inl rfl⟩
      · split
        · rename_i h1
          exact ⟨rfl, rfl, rfl, .inl rfl, .inr ⟨h1, rfl⟩⟩
        · exact ⟨rfl, rfl, rfl, .inl rfl, .inl rfl⟩
    · exact ⟨rfl, rfl, rfl, .inl rfl, .inl rfl⟩
  | parallelPass r j =>
    cases hi
    simp only [autoEvent, autoParallel] at h
    split at h
    · split at h
      · split at h
        · cases h
        · rename_i h1
          cases h
          exact ⟨rfl, rfl, rfl, .inr ⟨h1, rfl⟩, .inl rfl⟩
      · split at h
        · cases h
        · rename_i h1
          cases h
          exact ⟨rfl, rfl, rfl, .inl rfl, .inr ⟨h1, rfl⟩⟩
    · cases h
      exact ⟨rfl, rfl, rfl, .inl rfl, .inl rfl⟩
  | parallelCall => cases hi

theorem markFailed_length {l : List (Option RbfSel)} (h : l ≠ []) : (markFailed l).length = l.length := by
  have := List.length_pos_iff.mpr h
  simp [markFailed]
  omega

theorem mem_markFailed {l : List (Option RbfSel)} {m : RbfSel} (h : some m ∈ markFailed l) : some m ∈ l := by
  simp [markFailed] at h
  exact List.mem_of_mem_dropLast h

/-- The event that begins a parallel call. -/
theorem autoEvent_call {c : AutoCfg} {s s' : AutoState} {e : AutoEvent} (hi : e.input = none)
    (h : autoEvent c s e = some s') : s' = { s with vol := autoVol0 c } := by
  cases e with
  | serialPass j => cases hi
  | parallelPass r j => cases hi
  | parallelCall => exact (Option.some.inj h).symm

/-- Induction over histories. -/
theorem autoRun_induct {c : AutoCfg} {P : AutoState → Prop}
    (hstep : ∀ s e s', P s → autoEvent c s e = some s' → P s') {s0 s : AutoState} {es : List AutoEvent}
    (h0 : P s0) (h : autoRun c s0 es = some s) : P s := by
  induction es generalizing s0 with
  | nil => cases h; exact h0
  | cons e es ih =>
    rw [autoRun] at h
    obtain ⟨s1, h1, h2⟩ := Option.bind_eq_some_iff.mp h
    exact ih (hstep s0 e s1 h0 h1) h2

theorem autoChoose_noselect {c : AutoCfg} {i : AutoIn} {s : AutoState}
    (h : ¬ (c.rbf = none ∧ i.k > c.n + 2 ∧ i.step ≤ c.firstStep ∧ s.localList.length < c.maxCV)) :
    (autoChoose c i s).bestLocal = s.bestLocal ∧ (autoChoose c i s).bestGlobal = s.bestGlobal ∧
    (autoChoose c i s).localList = s.localList ∧ (autoChoose c i s).globalList = s.globalList := by
  unfold autoChoose autoUse autoSelect
  rw [if_neg h]
  exact ⟨rfl, rfl, rfl, rfl⟩

/-- **C89** In each pass the model in use is the local one from the last global search step on, and the
global one before. -/
theorem C89_local_or_global {c : AutoCfg} {s s' : AutoState} {e : AutoEvent} {i : AutoIn}
    (hi : e.input = some i) (h : autoEvent c s e = some s') :
    (c.localStep ≤ i.step + 1 → s'.vol.rbf = s'.bestLocal) ∧
    (i.step + 1 < c.localStep → s'.vol.rbf = s'.bestGlobal) := by
  obtain ⟨h1, h2, h3, -, -⟩ := autoEvent_pass hi h
  rw [h1, h2, h3]
  unfold autoChoose autoUse
  constructor
  · intro hl
    exact if_pos (by omega)
  · intro hl
    exact if_neg (by omega)

/-- **C89** A run with an RBF type chosen by the user only uses this type and the user's shape parameter,
in every pass and every call. -/
theorem C89_user_rbf {c : AutoCfg} {r : Rbf} (hr : c.rbf = some r) {es : List AutoEvent} {s : AutoState}
    (h : autoRun c (autoInit c) es = some s) : s.vol.rbf = ⟨r, c.shape⟩ := by
  have key : s.vol.rbf = ⟨r, c.shape⟩ ∧ s.bestLocal = ⟨r, c.shape⟩ ∧ s.bestGlobal = ⟨r, c.shape⟩ := by
    refine autoRun_induct (P := fun s => s.vol.rbf = ⟨r, c.shape⟩ ∧ s.bestLocal = ⟨r, c.shape⟩
      ∧ s.bestGlobal = ⟨r, c.shape⟩) ?_ ?_ h
    · rintro s e s' ⟨h1, h2, h3⟩ he
      cases hi : e.input with
      | none =>
        rw [autoEvent_call hi he]
        exact ⟨by simp [autoVol0, hr], h2, h3⟩
      | some i =>
        obtain ⟨g1, g2, g3, -, -⟩ := autoEvent_pass hi he
        obtain ⟨k1, k2, -, -⟩ := autoChoose_noselect (c := c) (i := i) (s := s) (by simp [hr])
        rw [g2, g3, k1, k2]
        refine ⟨?_, h2, h3⟩
        obtain ⟨l1, l2⟩ := C89_local_or_global hi he
        rcases Nat.lt_or_ge (i.step + 1) c.localStep with hl | hl
        · rw [l2 hl, g3, k2, h3]
        · rw [l1 hl, g2, k1, h2]
    · simp [autoInit, autoVol0, hr]
  exact key.1

theorem bestModelLoop_mem {err : RbfSel → Option ℕ} {orig : RbfSel} (cs : List (ℕ × RbfSel))
    (be : WithTop ℕ) (best : RbfSel) :
    ((bestModelLoop err orig cs be best).1 ∈ cs.map Prod.snd ∨ (bestModelLoop err orig cs be best).1 = best
      ∨ (bestModelLoop err orig cs be best).1 = orig) ∧
    ((bestModelLoop err orig cs be best).2 ∈ cs.map Prod.snd ∨ (bestModelLoop err orig cs be best).2 = orig) := by
  induction cs generalizing be best with
  | nil => simp [bestModelLoop]
  | cons x cs ih =>
    obtain ⟨i, x⟩ := x
    rw [bestModelLoop]
    cases err x with
    | none =>
      dsimp only
      constructor
      · split
        · exact .inr (.inl rfl)
        · exact .inr (.inr rfl)
      · simp
    | some e =>
      dsimp only
      split
      · obtain ⟨h1, h2⟩ := ih e x
        refine ⟨?_, ?_⟩
        · rcases h1 with h1 | h1 | h1
          · exact .inl (by simp [h1])
          · exact .inl (by simp [h1])
          · exact .inr (.inr h1)
        · rcases h2 with h2 | h2
          · exact .inl (by simp [h2])
          · exact .inr h2
      · obtain ⟨h1, h2⟩ := ih be best
        refine ⟨?_, ?_⟩
        · rcases h1 with h1 | h1 | h1
          · exact .inl (by simp [h1])
          · exact .inr (.inl h1)
          · exact .inr (.inr h1)
        · rcases h2 with h2 | h2
          · exact .inl (by simp [h2])
          · exact .inr h2

theorem bestRbfModel_mem (err : RbfSel → Option ℕ) (s : RbfSel) :
    ((bestRbfModel err s).1 ∈ supportedModels ∨ (bestRbfModel err s).1 = s) ∧
    ((bestRbfModel err s).2 ∈ supportedModels ∨ (bestRbfModel err s).2 = s) := by
  obtain ⟨h1, h2⟩ := bestModelLoop_mem (err := err) (orig := s) rbfCandidates ⊤ s
  exact ⟨by rcases h1 with h | h | h; exacts [.inl h, .inr h, .inr h], h2⟩

/-- The most frequent element of a list that ends with a model is one of the models. -/
theorem frequentModel_spec {l : List (Option RbfSel)} {x : RbfSel} (hx : some x ∈ l) :
    some (frequentModel l) ∈ l ∧ ∀ y : RbfSel, l.count (some y) ≤ l.count (some (frequentModel l)) := by
  cases h : mostCommonElement l [none] with
  | none =>
    have := C47_none_iff.mp h _ hx
    simp at this
  | some o =>
    obtain ⟨h1, h2, h3⟩ := C47_most_common h
    cases o with
    | none => simp at h2
    | some m =>
      have hm : frequentModel l = m := by unfold frequentModel; rw [h]
      rw [hm]
      refine ⟨h1, fun y => ?_⟩
      by_cases hy : some y ∈ l
      · convert (h3 _ (by simp) hy).1 using 2 <;> exact lawful_beq_subsingleton _ _
      · rw [List.count_eq_zero.mpr hy]
        omega

/-- The state after the selection, when one takes place. -/
theorem autoChoose_select {c : AutoCfg} {i : AutoIn} {s : AutoState}
    (h : c.rbf = none ∧ i.k > c.n + 2 ∧ i.step ≤ c.firstStep ∧ s.localList.length < c.maxCV) :
    ∃ m m' : RbfSel,
      m = (bestRbfModel i.errLocal s.vol.rbf).1 ∧
      m' = (bestRbfModel i.errGlobal (bestRbfModel i.errLocal s.vol.rbf).2).1 ∧
      (autoChoose c i s).localList = s.localList ++ [some m] ∧
      (autoChoose c i s).globalList = s.globalList ++ [some m'] ∧
      (autoChoose c i s).bestLocal
        = (if s.localList.length + 1 = c.maxCV then frequentModel (s.localList ++ [some m]) else m) ∧
      (autoChoose c i s).bestGlobal
        = (if s.localList.length + 1 = c.maxCV then frequentModel (s.globalList ++ [some m']) else m') := by
  refine ⟨_, _, rfl, rfl, ?_⟩
  unfold autoChoose autoUse autoSelect
  rw [if_pos h]
  simp only [List.length_append, List.length_singleton]
  split <;> exact ⟨rfl, rfl, rfl, rfl⟩

/-- The models that automatic selection may use. -/
def AutoModelOk (c : AutoCfg) (m : RbfSel) : Prop := m ∈ supportedModels ∨ m = ⟨.thinPlateSpline, c.shape⟩

/-- Invariant of automatic selection. -/
structure AutoInv (c : AutoCfg) (s : AutoState) : Prop where
  vol : AutoModelOk c s.vol.rbf
  loc : AutoModelOk c s.bestLocal
  glob : AutoModelOk c s.bestGlobal
  locs : ∀ m, some m ∈ s.localList → AutoModelOk c m
  globs : ∀ m, some m ∈ s.globalList → AutoModelOk c m
  len : s.localList.length = s.globalList.length
  cap : s.localList.length ≤ c.maxCV

theorem AutoInv.choose {c : AutoCfg} {i : AutoIn} {s : AutoState} (H : AutoInv c s) :
    AutoInv c (autoChoose c i s) := by
  have hv : AutoModelOk c (autoChoose c i s).bestLocal → AutoModelOk c (autoChoose c i s).bestGlobal →
      AutoModelOk c (autoChoose c i s).vol.rbf := by
    intro h1 h2
    unfold autoChoose autoUse at h1 h2 ⊢
    dsimp only at h1 h2 ⊢
    split
    · exact h1
    · exact h2
  by_cases h : c.rbf = none ∧ i.k > c.n + 2 ∧ i.step ≤ c.firstStep ∧ s.localList.length < c.maxCV
  · obtain ⟨m, m', em, em', e1, e2, e3, e4⟩ := autoChoose_select h
    have hm : AutoModelOk c m := by
      rcases (bestRbfModel_mem i.errLocal s.vol.rbf).1 with h | h
      · exact .inl (em ▸ h)
      · rw [em, h]; exact H.vol
    have hr : AutoModelOk c (bestRbfModel i.errLocal s.vol.rbf).2 := by
      rcases (bestRbfModel_mem i.errLocal s.vol.rbf).2 with h | h
      · exact .inl h
      · rw [h]; exact H.vol
    have hm' : AutoModelOk c m' := by
      rcases (bestRbfModel_mem i.errGlobal (bestRbfModel i.errLocal s.vol.rbf).2).1 with h | h
      · exact .inl (em' ▸ h)
      · rw [em', h]; exact hr
    have hl : ∀ x, some x ∈ s.localList ++ [some m] → AutoModelOk c x := by
      intro x hx
      simp only [List.mem_append, List.mem_singleton, Option.some.injEq] at hx
      rcases hx with hx | rfl
      · exact H.locs x hx
      · exact hm
    have hg : ∀ x, some x ∈ s.globalList ++ [some m'] → AutoModelOk c x := by
      intro x hx
      simp only [List.mem_append, List.mem_singleton, Option.some.injEq] at hx
      rcases hx with hx | rfl
      · exact H.globs x hx
      · exact hm'
    have b1 : AutoModelOk c (autoChoose c i s).bestLocal := by
      rw [e3]
      split
      · exact hl _ (frequentModel_spec (x := m) (by simp)).1
      · exact hm
    have b2 : AutoModelOk c (autoChoose c i s).bestGlobal := by
      rw [e4]
      split
      · exact hg _ (frequentModel_spec (x := m') (by simp)).1
      · exact hm'
    exact
      { vol := hv b1 b2, loc := b1, glob := b2
        locs := by rw [e1]; exact hl
        globs := by rw [e2]; exact hg
        len := by rw [e1, e2]; simp [H.len]
        cap := by rw [e1]; simp; have := h.2.2.2; omega }
  · obtain ⟨e1, e2, e3, e4⟩ := autoChoose_noselect h
    have b1 : AutoModelOk c (autoChoose c i s).bestLocal := by rw [e1]; exact H.loc
    have b2 : AutoModelOk c (autoChoose c i s).bestGlobal := by rw [e2]; exact H.glob
    exact
      { vol := hv b1 b2, loc := b1, glob := b2
        locs := by rw [e3]; exact H.locs
        globs := by rw [e4]; exact H.globs
        len := by rw [e3, e4]; exact H.len
        cap := by rw [e3]; exact H.cap }

theorem AutoInv.event {c : AutoCfg} (ha : c.rbf = none) {s s' : AutoState} {e : AutoEvent} (H : AutoInv c s)
    (he : autoEvent c s e = some s') : AutoInv c s' := by
  cases hi : e.input with
  | none =>
    rw [autoEvent_call hi he]
    exact ⟨.inr (by simp [autoVol0, ha]), H.loc, H.glob, H.locs, H.globs, H.len, H.cap⟩
  | some i =>
    obtain ⟨g1, g2, g3, g4, g5⟩ := autoEvent_pass hi he
    have K := AutoInv.choose (i := i) H
    have l1 : s'.localList.length = (autoChoose c i s).localList.length := by
      rcases g4 with g | ⟨g, g'⟩
      · rw [g]
      · rw [g', markFailed_length g]
    have l2 : s'.globalList.length = (autoChoose c i s).globalList.length := by
      rcases g5 with g | ⟨g, g'⟩
      · rw [g]
      · rw [g', markFailed_length g]
    exact
      { vol := by rw [g1]; exact K.vol
        loc := by rw [g2]; exact K.loc
        glob := by rw [g3]; exact K.glob
        locs := by
          intro m hm
          rcases g4 with g | ⟨-, g⟩
          · exact K.locs m (g ▸ hm)
          · exact K.locs m (mem_markFailed (g ▸ hm))
        globs := by
          intro m hm
          rcases g5 with g | ⟨-, g⟩
          · exact K.globs m (g ▸ hm)
          · exact K.globs m (mem_markFailed (g ▸ hm))
        len := by rw [l1, l2]; exact K.len
        cap := by rw [l1]; exact K.cap }

theorem AutoInv.run {c : AutoCfg} (ha : c.rbf = none) {s : AutoState} {es : List AutoEvent}
    (h : autoRun c (autoInit c) es = some s) : AutoInv c s := by
  refine autoRun_induct (P := AutoInv c) (fun s e s' H he => AutoInv.event ha H he) ?_ h
  have : AutoModelOk c ⟨.thinPlateSpline, c.shape⟩ := .inr rfl
  exact ⟨by simpa [autoInit, autoVol0, ha] using this, by simpa [autoInit, autoVol0, ha] using this,
    by simpa [autoInit, autoVol0, ha] using this, by simp [autoInit], by simp [autoInit], rfl,
    Nat.zero_le _⟩

/-- **C89** With automatic selection the model in use is always one of the supported ones, or the thin
plate spline with the user's shape parameter. -/
theorem C89_auto_rbf {c : AutoCfg} (ha : c.rbf = none) {s : AutoState} {es : List AutoEvent}
    (h : autoRun c (autoInit c) es = some s) :
    s.vol.rbf ∈ supportedModels ∨ s.vol.rbf = ⟨.thinPlateSpline, c.shape⟩ :=
  (AutoInv.run ha h).vol

/-- **C89** The number of selections is the number of passes at the beginning of a cycle with more than
`n+2` nodes, but at most `max_cross_validations`. -/
theorem C89_selections {c : AutoCfg} (ha : c.rbf = none) {s : AutoState} {es : List AutoEvent}
    (h : autoRun c (autoInit c) es = some s) :
    s.localList.length = min c.maxCV (es.countP (Selecting c)) ∧
    s.globalList.length = min c.maxCV (es.countP (Selecting c)) := by
  have key : s.localList.length = min c.maxCV (es.countP (Selecting c)) := by
    induction es using List.reverseRecOn generalizing s with
    | nil => cases h; simp [autoInit]
    | append_singleton es e ih =>
      rw [autoRun_append] at h
      obtain ⟨s1, h1, h2⟩ := Option.bind_eq_some_iff.mp h
      obtain ⟨s2, h3, h4⟩ := Option.bind_eq_some_iff.mp h2
      cases h4
      have := ih h1
      rw [List.countP_append, List.countP_singleton]
      cases hi : e.input with
      | none =>
        have hs : Selecting c e = false := by simp [Selecting, hi]
        rw [autoEvent_call hi h3, hs]
        simpa using this
      | some i =>
        obtain ⟨-, -, -, g4, -⟩ := autoEvent_pass hi h3
        have l1 : s.localList.length = (autoChoose c i s1).localList.length := by
          rcases g4 with g | ⟨g, g'⟩
          · rw [g]
          · rw [g', markFailed_length g]
        rw [l1]
        have hs : Selecting c e = (decide (i.step ≤ c.firstStep) && decide (c.n + 2 < i.k)) := by
          simp [Selecting, hi]
        by_cases hc : c.rbf = none ∧ i.k > c.n + 2 ∧ i.step ≤ c.firstStep ∧ s1.localList.length < c.maxCV
        · obtain ⟨m, m', -, -, e1, -⟩ := autoChoose_select hc
          rw [e1, hs]
          have h1 := hc.2.1
          have h2 := hc.2.2.1
          have h3 := hc.2.2.2
          simp [h2, h1]
          omega
        · obtain ⟨-, -, e3, -⟩ := autoChoose_noselect hc
          rw [e3, hs]
          by_cases hk : i.k > c.n + 2 ∧ i.step ≤ c.firstStep
          · have : ¬ s1.localList.length < c.maxCV := fun hlt => hc ⟨ha, hk.1, hk.2, hlt⟩
            omega
          · have : (decide (i.step ≤ c.firstStep) && decide (c.n + 2 < i.k)) = false := by
              by_contra hne
              simp at hne
              exact hk ⟨hne.2, hne.1⟩
            rw [this]
            simpa using (by assumption)
  exact ⟨key, by rw [← (AutoInv.run ha h).len]; exact key⟩

/-- **C89** The last selection takes the most frequent model among all selections that did not fail; the
fallback `('cubic', 0.1)` is never used. -/
theorem C89_last_selection {c : AutoCfg} (ha : c.rbf = none) {s s' : AutoState} {es : List AutoEvent}
    (h : autoRun c (autoInit c) es = some s) {e : AutoEvent} (he : autoEvent c s e = some s')
    (hs : Selecting c e = true) (hl : s.localList.length + 1 = c.maxCV) :
    ∃ m m' : RbfSel,
      (some s'.bestLocal ∈ s.localList ++ [some m] ∧ ∀ y : RbfSel, (s.localList ++ [some m]).count (some y)
        ≤ (s.localList ++ [some m]).count (some s'.bestLocal)) ∧
      (some s'.bestGlobal ∈ s.globalList ++ [some m'] ∧ ∀ y : RbfSel, (s.globalList ++ [some m']).count (some y)
        ≤ (s.globalList ++ [some m']).count (some s'.bestGlobal)) ∧
      ∃ i, e.input = some i ∧ m = (bestRbfModel i.errLocal s.vol.rbf).1 ∧
        m' = (bestRbfModel i.errGlobal (bestRbfModel i.errLocal s.vol.rbf).2).1 := by
  cases hi : e.input with
  | none => simp [Selecting, hi] at hs
  | some i =>
    simp [Selecting, hi] at hs
    obtain ⟨-, g2, g3, -, -⟩ := autoEvent_pass hi he
    obtain ⟨m, m', em, em', -, -, e3, e4⟩ := autoChoose_select (c := c) (i := i) (s := s)
      ⟨ha, hs.2, hs.1, by omega⟩
    rw [if_pos hl] at e3 e4
    refine ⟨m, m', ?_, ?_, i, rfl, em, em'⟩
    · rw [g2, e3]
      exact frequentModel_spec (x := m) (by simp)
    · rw [g3, e4]
      exact frequentModel_spec (x := m') (by simp)

/-- **C89** After `max_cross_validations` selections the two models never change again, whatever
happens, in particular when they fail. -/
theorem C89_frozen {c : AutoCfg} {s s' : AutoState} {es : List AutoEvent} (hl : s.localList.length = c.maxCV)
    (h : autoRun c s es = some s') : s'.bestLocal = s.bestLocal ∧ s'.bestGlobal = s.bestGlobal := by
  have key : s'.localList.length = c.maxCV ∧ s'.bestLocal = s.bestLocal ∧ s'.bestGlobal = s.bestGlobal := by
    refine autoRun_induct (P := fun t => t.localList.length = c.maxCV ∧ t.bestLocal = s.bestLocal
      ∧ t.bestGlobal = s.bestGlobal) ?_ ⟨hl, rfl, rfl⟩ h
    rintro t e t' ⟨h1, h2, h3⟩ he
    cases hi : e.input with
    | none => rw [autoEvent_call hi he]; exact ⟨h1, h2, h3⟩
    | some i =>
      obtain ⟨-, g2, g3, g4, -⟩ := autoEvent_pass hi he
      obtain ⟨k1, k2, k3, -⟩ := autoChoose_noselect (c := c) (i := i) (s := t) (fun hc => by omega)
      refine ⟨?_, by rw [g2, k1, h2], by rw [g3, k2, h3]⟩
      rcases g4 with g | ⟨g, g'⟩
      · rw [g, k3, h1]
      · rw [g', markFailed_length g, k3, h1]
  exact key.2

/-- **C89** A failure of the linear solver in a pass on one CPU marks the latest selection of the model in
use as failed and changes nothing else; before the first selection and in refinement or restoration steps it
changes nothing. -/
theorem C89_failure_serial {c : AutoCfg} {s t t' : AutoState} {i : AutoIn}
    (ht : autoEvent c s (.serialPass { i with fails := false }) = some t)
    (ht' : autoEvent c s (.serialPass { i with fails := true }) = some t') :
    (c.localStep < i.step → t' = t) ∧
    (i.step ≤ c.localStep → c.localStep ≤ i.step + 1 → t.localList ≠ [] →
      t' = { t with localList := t.localList.dropLast ++ [none] }) ∧
    (i.step + 1 < c.localStep → t.globalList ≠ [] →
      t' = { t with globalList := t.globalList.dropLast ++ [none] }) ∧
    (t.localList = [] → t.globalList = [] → t' = t) := by
  have e1 : t = autoChoose c i s := by
    cases ht
    rfl
  have e2 : t' = if i.step ≤ c.localStep then autoFail c i (autoChoose c i s) else autoChoose c i s := by
    cases ht'
    unfold autoSerial
    simp
    rfl
  rw [← e1] at e2
  refine ⟨fun h => ?_, fun h h' hl => ?_, fun h hl => ?_, fun hl hg => ?_⟩
  · rw [e2, if_neg (by omega)]
  · rw [e2, if_pos h]
    unfold autoFail
    rw [if_pos ⟨by omega, hl⟩]
    rfl
  · rw [e2, if_pos (by omega)]
    unfold autoFail
    rw [if_neg (fun hc => by have := hc.1; omega), if_pos hl]
    rfl
  · rw [e2]
    split
    · unfold autoFail
      rw [if_neg (fun hc => hc.2 hl), if_neg (fun hc => hc hg)]
    · rfl

/-- **C89** The same in a parallel run, unless the pass is repeated with an underdetermined system; before the
first selection the failure ends the call with an IndexError (`none`). -/
theorem C89_failure_parallel {c : AutoCfg} {s t : AutoState} {i : AutoIn} {r : Bool}
    (ht : autoEvent c s (.parallelPass r { i with fails := false }) = some t) :
    autoEvent c s (.parallelPass true { i with fails := true }) = some t ∧
    (c.localStep ≤ i.step + 1 → t.localList ≠ [] →
      autoEvent c s (.parallelPass false { i with fails := true })
        = some { t with localList := t.localList.dropLast ++ [none] }) ∧
    (i.step + 1 < c.localStep → t.globalList ≠ [] →
      autoEvent c s (.parallelPass false { i with fails := true })
        = some { t with globalList := t.globalList.dropLast ++ [none] }) ∧
    (t.localList = [] → t.globalList = [] →
      autoEvent c s (.parallelPass false { i with fails := true }) = none) := by
  have e1 : t = autoChoose c i s := by
    simp [autoEvent, autoParallel] at ht
    exact ht.symm
  have e2 : autoChoose c { i with fails := true } s = t := e1.symm
  refine ⟨?_, fun h hl => ?_, fun h hl => ?_, fun hl hg => ?_⟩
  · simp [autoEvent, autoParallel, e2]
  · simp only [autoEvent, autoParallel, e2]
    rw [if_pos (by simp), if_pos (by omega), if_neg hl]
    rfl
  · simp only [autoEvent, autoParallel, e2]
    rw [if_pos (by simp), if_neg (by omega), if_neg hl]
    rfl
  · simp only [autoEvent, autoParallel, e2]
    rw [if_pos (by simp), hl, hg]
    simp

/-- **C89** Gutmann's method is used exactly in the passes with more than `n` nodes, if the user asked for
it; otherwise MSRSM. -/
theorem C89_algorithm {c : AutoCfg} {s s' : AutoState} {es : List AutoEvent}
    (h : autoRun c (autoInit c) es = some s) {e : AutoEvent} {i : AutoIn} (hi : e.input = some i)
    (he : autoEvent c s e = some s') :
    s'.vol.algorithm = .gutmann ↔ c.algorithm = .gutmann ∧ c.n < i.k := by
  obtain ⟨g1, -⟩ := autoEvent_pass hi he
  have sel : ∀ t : AutoState, (autoSelect c i t).vol.algorithm = t.vol.algorithm := by
    intro t
    unfold autoSelect
    split
    · dsimp only
      split <;> rfl
    · rfl
  have e1 : s'.vol.algorithm = autoAlgorithm c i s.vol.algorithm := by
    rw [g1]
    unfold autoChoose autoUse
    exact sel _
  rw [e1]
  unfold autoAlgorithm
  by_cases hg : c.algorithm = .gutmann
  · rw [if_pos hg]
    split
    · rename_i hk
      simp
      omega
    · rename_i hk
      simp [hg]
      omega
  · rw [if_neg hg]
    have hm : c.algorithm = .msrsm := by cases hc : c.algorithm <;> simp_all
    have : s.vol.algorithm = .msrsm := by
      refine autoRun_induct (P := fun s => s.vol.algorithm = .msrsm) ?_ (by simp [autoInit, autoVol0, hm]) h
      intro t e t' ht hte
      cases hj : e.input with
      | none => rw [autoEvent_call hj hte]; exact hm
      | some j =>
        obtain ⟨k1, -⟩ := autoEvent_pass hj hte
        have sel' : ∀ t : AutoState, (autoSelect c j t).vol.algorithm = t.vol.algorithm := by
          intro t
          unfold autoSelect
          split
          · dsimp only
            split <;> rfl
          · rfl
        rw [k1]
        unfold autoChoose autoUse
        dsimp only
        rw [sel']
        dsimp only
        unfold autoAlgorithm
        rw [if_neg hg, ht]
    rw [this]
    simp [hg]

/-! ## function scaling -/

theorem autoSelect_scaling (c : AutoCfg) (i : AutoIn) (t : AutoState) :
    (autoSelect c i t).vol.scaling = t.vol.scaling := by
  unfold autoSelect
  split
  · dsimp only
    split <;> rfl
  · rfl

theorem autoEvent_scaling {c : AutoCfg} {s s' : AutoState} {e : AutoEvent} {i : AutoIn}
    (hi : e.input = some i) (he : autoEvent c s e = some s') :
    s'.vol.scaling = autoScaling c i s.vol.scaling := by
  obtain ⟨g1, -⟩ := autoEvent_pass hi he
  rw [g1]
  unfold autoChoose autoUse
  dsimp only
  rw [autoSelect_scaling]

/-- **C89** A scaling chosen by the user is always the one in use. -/
theorem C89_user_scaling {c : AutoCfg} {f : FunScaling} (hf : c.scaling = some f) {s : AutoState}
    {es : List AutoEvent} (h : autoRun c (autoInit c) es = some s) : s.vol.scaling = f := by
  refine autoRun_induct (P := fun s => s.vol.scaling = f) ?_ (by simp [autoInit, autoVol0, hf]) h
  intro t e t' ht hte
  cases hi : e.input with
  | none => rw [autoEvent_call hi hte]; simp [autoVol0, hf]
  | some i =>
    rw [autoEvent_scaling hi hte]
    unfold autoScaling
    rw [if_neg (by simp [hf]), ht]

theorem sorted_countP {l : List ℚ} (hl : l.Pairwise (· ≤ ·)) {m : ℕ} (hm : m < l.length) (x : ℚ) :
    x < l[m] ↔ l.countP (fun v => decide (v ≤ x)) ≤ m := by
  have hsplit : l = l.take m ++ l.drop m := (List.take_append_drop m l).symm
  have hp := List.pairwise_iff_getElem.mp hl
  constructor
  · intro hx
    have h0 : (l.drop m).countP (fun v => decide (v ≤ x)) = 0 := by
      rw [List.countP_eq_zero]
      intro v hv
      obtain ⟨j, hj, rfl⟩ := List.mem_iff_getElem.mp hv
      rw [List.getElem_drop]
      have : l[m] ≤ l[m + j]'(by simp at hj; omega) := by
        rcases Nat.eq_zero_or_pos j with rfl | hj0
        · exact le_rfl
        · exact hp m (m + j) hm (by simp at hj; omega) (by omega)
      simp
      linarith
    calc l.countP (fun v => decide (v ≤ x))
        = (l.take m ++ l.drop m).countP (fun v => decide (v ≤ x)) := by rw [← hsplit]
      _ = (l.take m).countP (fun v => decide (v ≤ x)) := by rw [List.countP_append, h0, Nat.add_zero]
      _ ≤ (l.take m).length := List.countP_le_length
      _ ≤ m := by simp
  · intro hc
    by_contra hx
    push Not at hx
    have h1 : (l.take (m + 1)).countP (fun v => decide (v ≤ x)) = m + 1 := by
      have : (l.take (m + 1)).countP (fun v => decide (v ≤ x)) = (l.take (m + 1)).length := by
        rw [List.countP_eq_length]
        intro v hv
        obtain ⟨j, hj, rfl⟩ := List.mem_iff_getElem.mp hv
        rw [List.getElem_take]
        have hj' : j < m + 1 := by simp at hj; omega
        have : l[j]'(by omega) ≤ l[m] := by
          rcases Nat.lt_or_ge j m with h | h
          · exact hp j m (by omega) hm h
          · have : j = m := by omega
            subst this; exact le_rfl
        simp
        linarith
      rw [this]
      simp
      omega
    have h2 : (l.take (m + 1)).countP (fun v => decide (v ≤ x)) ≤ l.countP (fun v => decide (v ≤ x)) :=
      (List.take_sublist _ _).countP_le
    omega

/-- The comparison made by the code is the one described by `WideSpread`. -/
theorem wideSpread_iff {thr : ℚ} {vals : List ℚ} (hne : vals ≠ []) :
    WideSpread thr vals ↔ (vals.insertionSort (· ≤ ·)).getD ((vals.insertionSort (· ≤ ·)).length / 2) 0
      - (vals.insertionSort (· ≤ ·)).getD 0 0 > thr := by
  have hperm := List.perm_insertionSort (· ≤ ·) vals
  have hsort := List.pairwise_insertionSort (· ≤ ·) vals
  generalize hL : vals.insertionSort (· ≤ ·) = L at hperm hsort
  have hlen : L.length = vals.length := hperm.length_eq
  have hpos : 0 < vals.length := List.length_pos_iff.mpr hne
  have h2 : L.length / 2 < L.length := by omega
  have h0 : 0 < L.length := by omega
  rw [List.getD_eq_getElem?_getD, List.getD_eq_getElem?_getD, List.getElem?_eq_getElem h2,
    List.getElem?_eq_getElem h0, Option.getD_some, Option.getD_some]
  have hmin : ∀ v ∈ vals, L[0] ≤ v := by
    intro v hv
    obtain ⟨j, hj, rfl⟩ := List.mem_iff_getElem.mp (hperm.mem_iff.mpr hv)
    rcases Nat.eq_zero_or_pos j with rfl | hj0
    · exact le_rfl
    · exact List.pairwise_iff_getElem.mp hsort 0 j h0 hj hj0
  have hmem : L[0] ∈ vals := hperm.mem_iff.mp (List.getElem_mem h0)
  have hcount : ∀ x : ℚ, L.countP (fun v => decide (v ≤ x)) = vals.countP (fun v => decide (v ≤ x)) :=
    fun x => hperm.countP_eq _
  have key := sorted_countP hsort h2 (L[0] + thr)
  rw [hcount] at key
  constructor
  · rintro ⟨m, hm, hle, hc⟩
    have : m = L[0] := le_antisymm (hle _ hmem) (hmin _ hm)
    subst this
    have := key.mpr (by rw [hlen]; exact hc)
    linarith
  · intro hgt
    refine ⟨L[0], hmem, hmin, ?_⟩
    rw [← hlen]
    exact key.mp (by linarith)

/-- The scaling after a sequence of passes without a new parallel call. -/
theorem scaling_run {c : AutoCfg} (ha : c.scaling = none) {s0 s : AutoState} {es : List AutoEvent}
    (h0 : s0.vol.scaling = .off) (hp : ∀ e ∈ es, ∃ i, e.input = some i ∧ i.vals ≠ [])
    (h : autoRun c s0 es = some s) :
    (s.vol.scaling = .off ∨ s.vol.scaling = .log) ∧
    (s.vol.scaling = .log ↔ ∃ i, LastCycleStart c es i ∧ WideSpread c.threshold i.vals) := by
  induction es using List.reverseRecOn generalizing s with
  | nil =>
    cases h
    rw [h0]
    refine ⟨.inl rfl, (fun h => by cases h), ?_⟩
    rintro ⟨i, ⟨pre, e, post, h, -⟩, -⟩
    simp at h
  | append_singleton es e ih =>
    rw [autoRun_append] at h
    obtain ⟨s1, h1, h2⟩ := Option.bind_eq_some_iff.mp h
    obtain ⟨s2, h3, h4⟩ := Option.bind_eq_some_iff.mp h2
    cases h4
    obtain ⟨ih1, ih2⟩ := ih (fun e he => hp e (by simp [he])) h1
    obtain ⟨i, hi, hne⟩ := hp e (by simp)
    rw [autoEvent_scaling hi h3]
    by_cases hs : i.step ≤ c.firstStep
    · have hlast : LastCycleStart c (es ++ [e]) i := ⟨es, e, [], rfl, hi, hs, by simp⟩
      have huniq : ∀ j, LastCycleStart c (es ++ [e]) j → j = i := by
        rintro j ⟨pre, e', post, h, hj, -, hpost⟩
        rcases List.eq_nil_or_concat post with rfl | ⟨post', x, rfl⟩
        · have := List.append_inj_right' h rfl
          cases this
          rw [hi] at hj
          exact (Option.some.inj hj).symm
        · have h' : es ++ [e] = (pre ++ e' :: post') ++ [x] := by rw [h]; simp
          have := List.append_inj_right' h' rfl
          cases this
          have := hpost e (by simp) i hi
          omega
      unfold autoScaling
      rw [if_pos ⟨ha, hs⟩]
      dsimp only
      by_cases hw : WideSpread c.threshold i.vals
      · rw [if_pos ((wideSpread_iff hne).mp hw)]
        exact ⟨.inr rfl, fun _ => ⟨i, hlast, hw⟩, fun _ => rfl⟩
      · rw [if_neg (fun hgt => hw ((wideSpread_iff hne).mpr hgt))]
        refine ⟨.inl rfl, (fun h => by cases h), ?_⟩
        rintro ⟨j, hj, hwj⟩
        rw [huniq j hj] at hwj
        exact absurd hwj hw
    · unfold autoScaling
      rw [if_neg (fun hc => hs hc.2)]
      refine ⟨ih1, ih2.trans ?_⟩
      constructor
      · rintro ⟨j, ⟨pre, e', post, rfl, hj, hjs, hpost⟩, hw⟩
        refine ⟨j, ⟨pre, e', post ++ [e], by simp, hj, hjs, ?_⟩, hw⟩
        intro x hx k hk
        simp only [List.mem_append, List.mem_singleton] at hx
        rcases hx with hx | rfl
        · exact hpost x hx k hk
        · rw [hi] at hk
          cases hk
          omega
      · rintro ⟨j, ⟨pre, e', post, h, hj, hjs, hpost⟩, hw⟩
        rcases List.eq_nil_or_concat post with rfl | ⟨post', x, rfl⟩
        · have := List.append_inj_right' h rfl
          cases this
          rw [hi] at hj
          cases hj
          exact absurd hjs hs
        · have h' : es ++ [e] = (pre ++ e' :: post') ++ [x] := by rw [h]; simp
          have := List.append_inj_left' h' rfl
          exact ⟨j, ⟨pre, e', post', this, hj, hjs, fun y hy => hpost y (by simp [hy])⟩, hw⟩

/-- **C89** Automatic scaling in a run on one CPU, over all calls: the logarithm is in use exactly if, at
the last beginning of a cycle, at most half of the node values were within `log_scaling_threshold` of the
smallest one; otherwise there is no scaling. -/
theorem C89_auto_scaling_serial {c : AutoCfg} (ha : c.scaling = none) {s : AutoState} {es : List AutoEvent}
    (hp : ∀ e ∈ es, ∃ i, e = .serialPass i ∧ i.vals ≠ []) (h : autoRun c (autoInit c) es = some s) :
    (s.vol.scaling = .off ∨ s.vol.scaling = .log) ∧
    (s.vol.scaling = .log ↔ ∃ i, LastCycleStart c es i ∧ WideSpread c.threshold i.vals) := by
  refine scaling_run ha (by simp [autoInit, autoVol0, ha]) ?_ h
  intro e he
  obtain ⟨i, rfl, hi⟩ := hp e he
  exact ⟨i, rfl, hi⟩

/-- **C89** In a parallel run only the current call counts: `es` are the passes since its beginning. -/
theorem C89_auto_scaling_parallel {c : AutoCfg} (ha : c.scaling = none) {s : AutoState}
    {before es : List AutoEvent} (hp : ∀ e ∈ es, ∃ r i, e = .parallelPass r i ∧ i.vals ≠ [])
    (h : autoRun c (autoInit c) (before ++ .parallelCall :: es) = some s) :
    (s.vol.scaling = .off ∨ s.vol.scaling = .log) ∧
    (s.vol.scaling = .log ↔ ∃ i, LastCycleStart c es i ∧ WideSpread c.threshold i.vals) := by
  rw [autoRun_append] at h
  obtain ⟨s1, -, h2⟩ := Option.bind_eq_some_iff.mp h
  rw [autoRun] at h2
  obtain ⟨s2, h3, h4⟩ := Option.bind_eq_some_iff.mp h2
  have e2 := autoEvent_call (e := .parallelCall) rfl h3
  refine scaling_run ha (s0 := s2) (by rw [e2]; simp [autoVol0, ha]) ?_ h4
  intro e he
  obtain ⟨r, i, rfl, hi⟩ := hp e he
  exact ⟨i, rfl, hi⟩

/-- **C89** (violation) Pausing a parallel run in the middle of a cycle changes the scaling: after a cycle
start that selects the logarithm, the next pass uses it if it is in the same call, and no scaling if it is
in the next call. -/
theorem C89_violated_parallel_resume : ∃ (c : AutoCfg) (i j : AutoIn) (s s' : AutoState),
    c.scaling = none ∧ i.step ≤ c.firstStep ∧ c.firstStep < j.step ∧
    autoRun c (autoInit c) [.parallelCall, .parallelPass false i, .parallelPass false j] = some s ∧
    autoRun c (autoInit c) [.parallelCall, .parallelPass false i, .parallelCall, .parallelPass false j]
      = some s' ∧
    s.vol.scaling = .log ∧ s'.vol.scaling = .off :=
  let c : AutoCfg := ⟨some .cubic, 1/10, none, .msrsm, 1000, 5, 2, 0, 6⟩
  let i : AutoIn := ⟨0, 3, [0, 5000, 6000], fun _ => none, fun _ => none, false⟩
  let j : AutoIn := ⟨1, 4, [0, 5000, 6000, 7000], fun _ => none, fun _ => none, false⟩
  ⟨c, i, j, _, _, rfl, by decide, by decide, rfl, rfl, by decide +kernel, by decide +kernel⟩

end Rbfopt
