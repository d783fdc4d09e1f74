import Verif.Model.Persist
import Verif.Props.Resume

/-! # Lemmas on saving and loading -/

namespace Rbfopt

variable {X R : Type}

@[simp] theorem setAlg_alg (p : Proc X R) (a : Alg (X × R)) : (p.setAlg a).alg = a := rfl
@[simp] theorem setAlg_fs (p : Proc X R) (a : Alg (X × R)) : (p.setAlg a).fs = p.fs := rfl

theorem applyOps_write (fs : FS) (path : String) (bs : Bytes) (b0 : Bytes)
    (h : fs path = some b0) :
    applyOps fs (bs.map (FsOp.write path)) = Function.update fs path (some (b0 ++ bs)) := by
  induction bs generalizing fs b0 with
  | nil =>
    rw [List.append_nil, ← h]
    simp [applyOps]
  | cons b bs ih =>
    have := ih (FsOp.apply fs (.write path b)) (b0 ++ [b]) (by simp [FsOp.apply, h])
    show applyOps (FsOp.apply fs (.write path b)) (bs.map (FsOp.write path)) = _
    rw [this]
    simp [FsOp.apply, h]

theorem applyOps_save (fs : FS) (path : String) (bs : Bytes) :
    applyOps fs (FsOp.truncate path :: bs.map (FsOp.write path)) =
      Function.update fs path (some bs) := by
  show applyOps (FsOp.apply fs (.truncate path)) (bs.map (FsOp.write path)) = _
  rw [applyOps_write _ _ _ [] (by simp [FsOp.apply])]
  simp [FsOp.apply]

theorem prefix_map {α β : Type} {f : α → β} {l : List α} {p : List β} (h : p <+: l.map f) :
    ∃ q, q <+: l ∧ p = q.map f := by
  obtain ⟨t, ht⟩ := h
  refine ⟨l.take p.length, List.take_prefix _ _, ?_⟩
  rw [List.map_take, ← ht]
  simp

/-- What can be found in the file system after a crash while saving. -/
theorem crashWhileSaving_iff {pk : Pickle (PyObj X R)} {canOpen : String → Bool} {p : Proc X R}
    {path : String} {fs : FS} :
    CrashWhileSaving pk canOpen p path fs ↔
      fs = p.fs ∨ (canOpen path = true ∧ ∃ bs, bs <+: (pk.dump (dumpedObj p)).1 ∧
        fs = Function.update p.fs path (some bs)) := by
  unfold CrashWhileSaving saveOps
  constructor
  · rintro ⟨ops, h1, rfl⟩
    split at h1
    · rename_i hc
      cases ops with
      | nil => exact Or.inl rfl
      | cons x ops =>
        rw [List.cons_prefix_cons] at h1
        obtain ⟨rfl, h1⟩ := h1
        obtain ⟨q, hq, rfl⟩ := prefix_map h1
        exact Or.inr ⟨hc, q, hq, applyOps_save _ _ _⟩
    · have := List.prefix_nil.mp h1
      subst this
      exact Or.inl rfl
  · rintro (rfl | ⟨hc, bs, h, rfl⟩)
    · exact ⟨[], List.nil_prefix, rfl⟩
    · rw [if_pos hc]
      exact ⟨FsOp.truncate path :: bs.map (FsOp.write path),
        (List.prefix_cons_inj _).mpr (h.map _), (applyOps_save _ _ _).symm⟩

theorem saveToFile_ok {pk : Pickle (PyObj X R)} {canOpen : String → Bool} {p q : Proc X R}
    {path : String} (h : saveToFile pk canOpen p path = (q, none)) :
    canOpen path = true ∧ ∃ b, pk.dump (dumpedObj p) = (b, none) ∧
      q = { obj := { p.obj with randomState := some p.rng }, rng := p.rng
            fs := Function.update p.fs path (some b) } := by
  unfold saveToFile saveOps at h
  dsimp only at h
  split at h
  · rename_i hc
    refine ⟨hc, (pk.dump (dumpedObj p)).1, ?_⟩
    rw [applyOps_save] at h
    split at h
    · cases h
    · rename_i e
      refine ⟨Prod.ext rfl e, ?_⟩
      cases h
      rfl
  · cases h

theorem loadFromFile_ok {pk : Pickle (PyObj X R)} {fs : FS} {rng : R} {path : String}
    {q : Proc X R} (h : loadFromFile pk fs rng path = .ok q) :
    ∃ b obj r, fs path = some b ∧ pk.load b = some obj ∧ obj.randomState = some r ∧
      q = { obj := { obj with stream := some .stdout }, rng := r, fs := fs } := by
  unfold loadFromFile at h
  split at h
  · cases h
  · rename_i b hb
    split at h
    · cases h
    · rename_i obj ho
      split at h
      · cases h
      · rename_i r hr
        cases h
        exact ⟨b, obj, r, hb, ho, hr, rfl⟩

/-- The part of the run already made: `n` passes lead from one point of the loop to another. -/
def PassesTo {O : Type} (P : Params) (env : Env O) (start pause : ℕ) (s : Alg O) (loc : Loc)
    (s' : Alg O) (loc' : Loc) : Prop :=
  ∃ n, ∀ m, loop P env start pause (n + m) s loc = loop P env start pause m s' loc'

theorem PassesTo.refl {O : Type} {P : Params} {env : Env O} {start pause : ℕ} {s : Alg O}
    {loc : Loc} : PassesTo P env start pause s loc s loc :=
  ⟨0, fun m => by rw [Nat.zero_add]⟩

theorem PassesTo.step {O : Type} {P : Params} {env : Env O} {start pause : ℕ} {s s1 s' : Alg O}
    {loc l1 loc' : Loc} (hc : loopCond P env start pause s loc = true)
    (hp : pass P env s loc = .ok (s1, l1)) (h : PassesTo P env start pause s1 l1 s' loc') :
    PassesTo P env start pause s loc s' loc' := by
  obtain ⟨n, h⟩ := h
  refine ⟨n + 1, fun m => ?_⟩
  rw [Nat.add_right_comm]
  simp only [loop]
  rw [if_pos hc, hp]
  exact h m

end Rbfopt
