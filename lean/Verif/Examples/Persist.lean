import Verif.Props.Persist
import Verif.Examples.Demo
import Mathlib.Data.Countable.Basic
import Mathlib.Data.Rat.Denumerable
import Mathlib.Logic.Encodable.Basic
import Mathlib.Logic.Equiv.List

/-!
# The hypotheses of C14 and C15 are satisfiable

A pickle format with the assumed properties exists, and a concrete run is killed and recovered.
-/

namespace Rbfopt.Demo

/-- Any countable type has a pickle format with the assumed properties: the number of the object in
unary, closed by a stop byte. -/
theorem pickle_exists (α : Type) [Countable α] : ∃ pk : Pickle α, ∀ a, (pk.dump a).2 = none := by
  classical
  obtain ⟨f, hf⟩ := exists_injective_nat α
  let enc : α → Bytes := fun a => List.replicate (f a) 0 ++ [1]
  have key : ∀ a a' p, p <+: enc a → p = enc a' → a' = a := by
    intro a a' p hp he
    subst he
    obtain ⟨t, ht⟩ := hp
    apply hf
    have h1 : (enc a)[f a']? = some 1 := by
      rw [← ht, List.getElem?_append_left (by simp [enc])]
      simp [enc]
    have h2 := (List.getElem?_eq_some_iff.mp h1).1
    simp only [enc, List.length_append, List.length_replicate, List.length_singleton] at h2
    by_contra hne
    have h3 : f a' < f a := by omega
    simp only [enc] at h1
    rw [List.getElem?_append_left (by simpa using h3)] at h1
    simp [List.getElem?_replicate, h3] at h1
  refine ⟨{ dump := fun a => (enc a, none)
            load := fun b => if h : ∃ a, enc a = b then some h.choose else none
            roundtrip := ?_, empty := ?_, truncated := ?_, failed := ?_ }, fun _ => rfl⟩
  · intro a b h
    cases h
    have h : ∃ a', enc a' = enc a := ⟨a, rfl⟩
    rw [dif_pos h]
    exact congrArg some (key a h.choose _ (List.prefix_refl _) h.choose_spec.symm)
  · rw [dif_neg]
    rintro ⟨a, h⟩
    simp [enc] at h
  · intro a b h p hp hne
    cases h
    rw [dif_neg]
    rintro ⟨a', h⟩
    have := key a a' p hp h.symm
    subst this
    exact hne h.symm
  · intro a b e h; cases h

instance : Countable EVal := inferInstanceAs (Countable (Option ℚ))

instance : Countable Mode :=
  Function.Injective.countable (f := fun m : Mode => decide (m = .noisy)) (by
    intro a b h; cases a <;> cases b <;> simp_all)

instance : Countable Stream :=
  Function.Injective.countable (f := fun m : Stream => match m with
    | .stdout => 0 | .user n => n + 1) (by
    intro a b h; cases a <;> cases b <;> simp_all)

instance : Countable Call :=
  Function.Injective.countable (f := fun c : Call => match c with
    | .acc x v => (true, x, v, (0 : ℚ), (0 : ℚ)) | .noisy x v a b => (false, x, v, a, b)) (by
    intro a b h; cases a <;> cases b <;> simp_all)

instance : Countable Table :=
  Function.Injective.countable (f := fun t : Table => (t.pos, t.val, t.noisy, t.err)) (by
    intro a b h; cases a; cases b; simp_all)

instance {O : Type} [Countable O] : Countable (Alg O) :=
  Function.Injective.countable (f := fun a : Alg O =>
    ((a.itercount, a.evalcount, a.noisyEvalcount, a.step, a.cyc, a.numCons, a.numStalled),
     (a.numNoisyRestarts, a.discarded, a.solveUnder, a.mode, a.cur, a.all, a.nAtRestart),
     (a.fminIdx, a.fmin, a.fmax, a.fbestIdx, a.fbest, a.isFminNoisy, a.isFbestNoisy),
     (a.bestGapShown, a.fminStall, a.fminLastRefine, a.iterLastRefine, a.refSet, a.refRadius),
     (a.refIter, a.elapsed, a.opq, a.log, a.stars, a.nInit, a.passes))) (by
    intro a b h; cases a; cases b; simp_all)

instance {X R : Type} [Countable X] [Countable R] : Countable (PyObj X R) :=
  Function.Injective.countable (f := fun a : PyObj X R => (a.attrs, a.randomState, a.stream)) (by
    intro a b h; cases a; cases b; simp_all)

/-- `Demo.P` with a checkpoint every second iteration. -/
def P2 : Params := { P with saveInterval := 2 }

/-- `Demo.env` with an explicit random generator, advanced by every search. -/
def env2 : Env (ℕ × ℕ) :=
  { dist := dist1, decode := id, toInternal := id, toOrig := id
    evalAcc := fun _ x => (x.headD 0 - 3)^2 + 1
    evalNoisy := fun _ x => ((x.headD 0 - 3)^2 + 2, -1, 1)
    initNodes := fun s => .ok ([[0], [10]], s.opq)
    prep := fun s => .ok s.opq
    modelFails := fun s => (false, s.opq)
    initRef := fun s => .ok (([0, 1], 1), s.opq)
    linFails := fun s => (false, s.opq)
    search := fun s => .ok (some [(s.opq.2 : ℚ) + 1], (s.opq.1, s.opq.2 + 1))
    localSearch := fun s => .ok (⟨false, some [(s.opq.2 : ℚ) + 1], none, false, []⟩,
      (s.opq.1, s.opq.2 + 1))
    refStep := fun s => .ok (⟨some [(s.opq.2 : ℚ) + 1], 1, 0, false⟩, (s.opq.1, s.opq.2 + 1))
    restCand := fun _ _ => [5]
    restInvertible := fun _ _ => true
    restOpq := fun s => s.opq
    realImpr := fun _ v => .ok v
    clock := fun _ => 0
    callTime := fun _ => 0 }

theorem env2_ignores : env2.IgnoresElapsed := by
  constructor <;> intros <;> rfl

/-- The state after the initialization. -/
def st0 : Option (Alg (ℕ × ℕ) × Loc) := (serialStart P2 env2 (Alg.init P2 (0, 0))).toOption
/-- One pass. -/
def nxt (x : Alg (ℕ × ℕ) × Loc) : Option (Alg (ℕ × ℕ) × Loc) := (pass P2 env2 x.1 x.2).toOption

theorem st_facts :
    (st0.map (fun x => (x.1.itercount, loopCond P2 env2 0 100 x.1 x.2))) = some (0, true) ∧
    ((st0.bind nxt).map (fun x => (x.1.itercount, loopCond P2 env2 0 100 x.1 x.2))) =
      some (1, true) ∧
    (((st0.bind nxt).bind nxt).map (fun x => (x.1.itercount, x.1.all.val))) =
      some (2, [10, 50, 5, 2]) := by
  decide +kernel

theorem toOption_ok {ε α : Type} {x : Except ε α} {a : α} (h : x.toOption = some a) : x = .ok a := by
  cases x with
  | error e => cases h
  | ok b => cases h; rfl

theorem dist1_self (p : Pt) : dist1 p p = 0 := by simp [dist1]

/-- All hypotheses of `C14_crash_recovery` hold in a concrete run that is killed after the first
automatic checkpoint (two iterations), and `C15`'s crash states exist for that save. -/
theorem recovery_example : ∃ (pk : Pickle (PyObj ℕ ℕ)) (p0 : Proc ℕ ℕ) (s1 : Alg (ℕ × ℕ)) (loc : Loc)
    (fs : FS) (l : Proc ℕ ℕ),
    Reach P2 env2 (0, 0) .idle p0.alg ∧ serialStart P2 env2 p0.alg = .ok (s1, loc) ∧
    CrashInLoop pk (fun _ => true) "state" P2 env2 p0.alg.itercount 100 (p0.setAlg s1) loc fs ∧
    loadFromFile pk fs 7 "state" = .ok l ∧ fs "state" ≠ p0.fs "state" ∧ l.alg.itercount = 2 ∧
    (∀ v ∈ l.alg.all.val,
      P2.target + P2.epsOpt * (if P2.epsZero ≤ |P2.target| then |P2.target| else 1) < v) ∧
    SameOutcome (optimize P2 env2 300 100 p0.alg) (optimize P2 env2 300 98 l.alg) := by
  obtain ⟨pk, hpk⟩ := pickle_exists (PyObj ℕ ℕ)
  let p0 : Proc ℕ ℕ :=
    { obj := { attrs := (Alg.init P2 (0, 0)).mapOpq Prod.fst, randomState := none
               stream := some .stdout }, rng := 0, fs := fun _ => none }
  have halg : p0.alg = Alg.init P2 (0, 0) := rfl
  obtain ⟨f0, f1, f2⟩ := st_facts
  have k0 : ∃ x0, st0 = some x0 := by
    cases h : st0 with
    | none => rw [h] at f0; cases f0
    | some x => exact ⟨x, rfl⟩
  obtain ⟨⟨s1, l1⟩, e0⟩ := k0
  rw [e0] at f0 f1 f2
  simp only [Option.map_some, Option.bind_some, Option.some.injEq, Prod.mk.injEq] at f0 f1 f2
  have k1 : ∃ x1, nxt (s1, l1) = some x1 := by
    cases h : nxt (s1, l1) with
    | none => rw [h] at f1; cases f1
    | some x => exact ⟨x, rfl⟩
  obtain ⟨⟨s2, l2⟩, e1⟩ := k1
  rw [e1] at f1 f2
  simp only [Option.map_some, Option.bind_some, Option.some.injEq, Prod.mk.injEq] at f1 f2
  have k2 : ∃ x2, nxt (s2, l2) = some x2 := by
    cases h : nxt (s2, l2) with
    | none => rw [h] at f2; cases f2
    | some x => exact ⟨x, rfl⟩
  obtain ⟨⟨s3, l3⟩, e2⟩ := k2
  rw [e2] at f2
  simp only [Option.map_some, Option.some.injEq, Prod.mk.injEq] at f2
  have hs : serialStart P2 env2 p0.alg = .ok (s1, l1) := toOption_ok e0
  have hp1 : pass P2 env2 s1 l1 = .ok (s2, l2) := toOption_ok e1
  have hp2 : pass P2 env2 s2 l2 = .ok (s3, l3) := toOption_ok e2
  -- the save after the second iteration
  obtain ⟨q, hq⟩ : ∃ q, saveToFile pk (fun _ => true) ((p0.setAlg s2).setAlg s3) "state" =
      (q, none) := by
    unfold saveToFile
    simp only [if_true]
    rw [hpk]
    exact ⟨_, rfl⟩
  have hcrash : CrashInLoop pk (fun _ => true) "state" P2 env2 p0.alg.itercount 100 (p0.setAlg s1)
      l1 q.fs := by
    refine .later (loc' := l2) (s' := s2) f0.2 hp1 ?_ (.saved (loc' := l3) (s' := s3) f1.2 hp2 ?_ hq
      (.now _ _))
    · show saveDue P2 s1 s2 = false
      unfold saveDue
      rw [f0.1, f1.1]
      decide
    · show saveDue P2 s2 s3 = true
      unfold saveDue
      rw [f1.1, f2.1]
      decide
  obtain ⟨l, hl, g1, -⟩ := C14_roundtrip pk hq (fs := q.fs) rfl 7
  have g1 : l.alg = s3 := g1
  have hnew : q.fs "state" ≠ p0.fs "state" := by
    obtain ⟨-, b, -, rfl⟩ := saveToFile_ok hq
    simp [p0]
  have hv : ∀ v ∈ l.alg.all.val,
      P2.target + P2.epsOpt * (if P2.epsZero ≤ |P2.target| then |P2.target| else 1) < v := by
    rw [g1, f2.2]
    decide +kernel
  have hrec := C14_crash_recovery (fuel := 300) (o := (0, 0)) (rng := 7) rfl dist1_self
    (by norm_num [P2, P]) (by norm_num [P2, P]) rfl env2_ignores (by decide) .init hs hcrash hl hnew hv
  rw [g1, f2.1] at hrec
  refine ⟨pk, p0, s1, l1, q.fs, l, .init, hs, hcrash, hl, hnew, ?_, hv, ?_⟩
  · rw [g1]; exact f2.1
  · rw [g1]; exact hrec

end Rbfopt.Demo
