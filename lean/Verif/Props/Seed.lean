import Verif.Model.Seed
import Verif.Lemmas.Flags
import Verif.Examples.Demo

/-!
# Reproducibility (C93)
-/

namespace Rbfopt

variable {X R : Type}

theorem optimize_ret_unique {O : Type} {P : Params} {env : Env O} {fuel fuel' pause : ℕ} {s : Alg O}
    {r r' : OptResult O} (h : optimize P env fuel pause s = .ret r)
    (h' : optimize P env fuel' pause s = .ret r') : r = r' := by
  have key : ∀ (f k : ℕ) (r : OptResult O), optimize P env f pause s = .ret r →
      optimize P env (f + k) pause s = .ret r := by
    intro f k r h
    unfold optimize at h ⊢
    split at h
    · cases h
    · rename_i s1 loc hs
      have h2 : loop P env s.itercount pause f s1 loc ≠ .outOfFuel := by
        intro h3; rw [h3] at h; cases h
      rw [loop_fuel f k h2]
      exact h
  rcases Nat.le_total fuel fuel' with hl | hl
  · obtain ⟨k, rfl⟩ := Nat.exists_eq_add_of_le hl
    have := key fuel k r h
    rw [h'] at this
    cases this; rfl
  · obtain ⟨k, rfl⟩ := Nat.exists_eq_add_of_le hl
    have := key fuel' k r' h'
    rw [h] at this
    cases this; rfl

theorem scalls_unique {i j : ℕ} {ks : List ℕ} {s t u v : Session X R} {rs rs' : List (OptResult (X × R))}
    {b : SObj X R} (h : SCalls i ks s rs u) (h' : SCalls j ks t rs' v) (hi : s.objs[i]? = some b)
    (hj : t.objs[j]? = some b) (hr : s.rng = t.rng) :
    rs = rs' ∧ u.rng = v.rng ∧ u.objs[i]? = v.objs[j]? := by
  induction ks generalizing s t rs rs' b with
  | nil =>
    cases h; cases h'
    exact ⟨rfl, hr, hi.trans hj.symm⟩
  | cons k ks ih =>
    cases h with
    | @cons _ _ _ _ b1 _ r1 _ e1 o1 c1 =>
      cases h' with
      | @cons _ _ _ _ b2 _ r2 _ e2 o2 c2 =>
        have hb1 : b1 = b := by rw [hi] at e1; exact (Option.some.inj e1).symm
        have hb2 : b2 = b := by rw [hj] at e2; exact (Option.some.inj e2).symm
        subst hb1 hb2
        rw [← hr] at o2
        have hrr : r1 = r2 := optimize_ret_unique o1 o2
        subst hrr
        have hli : i < s.objs.length := (List.getElem?_eq_some_iff.mp hi).1
        have hlj : j < t.objs.length := (List.getElem?_eq_some_iff.mp hj).1
        obtain ⟨g1, g2, g3⟩ := ih c1 c2
          (b := { b2 with attrs := r1.final.mapOpq Prod.fst })
          (by simp [Session.afterCall, List.getElem?_set_self hli])
          (by simp [Session.afterCall, List.getElem?_set_self hlj]) rfl
        exact ⟨by rw [g1], g2, g3⟩

/-- **C93** Reproducibility: whatever the process has done before, constructing an object with the same
settings, black box and seed and calling `optimize()` with the same arguments gives the same results
(value, point, counters, all records, calls of the black box), and leaves the generator in the same
state. -/
theorem C93_reproducible {seed : ℕ → R} {P : Params} {env : Env (X × R)} {x : X} {randSeed : ℕ}
    {s t u v : Session X R} {ks : List ℕ} {rs rs' : List (OptResult (X × R))}
    (h : SCalls s.objs.length ks (s.construct seed P env x randSeed) rs u)
    (h' : SCalls t.objs.length ks (t.construct seed P env x randSeed) rs' v) :
    rs = rs' ∧ u.rng = v.rng ∧ u.objs[s.objs.length]? = v.objs[t.objs.length]? :=
  scalls_unique h h' (b := { P := P, env := env, attrs := Alg.init P x })
    (by simp [Session.construct]) (by simp [Session.construct]) rfl

/-- **C93** Whatever else happens in the process, an object that is not used does not change. -/
theorem C93_other_objects_untouched {seed : ℕ → R} {i : ℕ} {s t : Session X R}
    (h : SRunWithout seed i s t) {b : SObj X R} (hb : s.objs[i]? = some b) :
    t.objs[i]? = some b := by
  induction h with
  | refl => exact hb
  | step _ hst hne ih =>
    have hi : ∀ {u : Session X R}, u.objs[i]? = some b → i < u.objs.length := fun h =>
      (List.getElem?_eq_some_iff.mp h).1
    cases hst with
    | construct P env x n => simp only [Session.construct]; rw [List.getElem?_append_left (hi ih)]; exact ih
    | @optimize _ j _ _ b' r e o =>
      have hij : j ≠ i := fun h => hne (by rw [h])
      simp only [Session.afterCall]
      rw [List.getElem?_set_ne hij]; exact ih
    | @raised _ j _ _ b' e a rng h1 h2 =>
      have hij : j ≠ i := fun h => hne (by rw [h])
      dsimp only
      rw [List.getElem?_set_ne hij]; exact ih
    | load b' rng => dsimp only; rw [List.getElem?_append_left (hi ih)]; exact ih
    | other rng => exact ih

/-- **C93** So the only way in which the rest of the process can influence a resumed run is numpy's
generator: if it is in the same state as after the previous call, the next call gives the same result. -/
theorem C93_only_through_generator {seed : ℕ → R} {i k : ℕ} {s t u v : Session X R}
    {rs rs' : List (OptResult (X × R))} (h : SRunWithout seed i s t) (hr : t.rng = s.rng) {b : SObj X R}
    (hb : s.objs[i]? = some b) (h1 : SCalls i [k] s rs u) (h2 : SCalls i [k] t rs' v) : rs = rs' :=
  (scalls_unique h1 h2 hb (C93_other_objects_untouched h hb) hr.symm).1

/-- **C93** (violated part) All workers of all parallel calls start from the same generator state: two
workers, of the same call or of different calls, that execute the same tasks produce the same random
results. -/
theorem C93_violated_workers_repeat {A B : Type} (seed : ℕ → R) (randSeed : ℕ) (task : A → R → B × R)
    {args args' : List A} (h : args <+: args') :
    (workerRun seed randSeed task args).1 <+: (workerRun seed randSeed task args').1 := by
  obtain ⟨rest, rfl⟩ := h
  unfold workerRun
  rw [List.foldl_append]
  generalize args.foldl _ _ = st
  induction rest generalizing st with
  | nil => exact List.prefix_rfl
  | cons a rest ih =>
    rw [List.foldl_cons]
    exact List.IsPrefix.trans (List.prefix_append st.1 [(task a st.2).1])
      (ih (st.1 ++ [(task a st.2).1], (task a st.2).2))

/-! ## The generator is shared -/

namespace Demo

/-- The search of `Demo.env`, with points drawn from the generator. -/
def envSeed : Env (Unit × ℕ) :=
  { dist := dist1, decode := id, toInternal := id, toOrig := id
    evalAcc := fun _ x => (x.headD 0 - 3)^2 + 1
    evalNoisy := fun _ x => ((x.headD 0 - 3)^2 + 2, -1, 1)
    initNodes := fun s => .ok ([[0], [10]], s.opq)
    prep := fun s => .ok s.opq
    modelFails := fun s => (false, s.opq)
    initRef := fun s => .ok (([0, 1], 1), s.opq)
    linFails := fun s => (false, s.opq)
    search := fun s => .ok (some [(s.opq.2 : ℚ) + 1], ((), s.opq.2 + 1))
    localSearch := fun s => .ok (⟨false, some [(s.opq.2 : ℚ) + 1], none, false, []⟩, ((), s.opq.2 + 1))
    refStep := fun s => .ok (⟨some [(s.opq.2 : ℚ) + 1], 1, 0, false⟩, ((), s.opq.2 + 1))
    restCand := fun _ _ => [5]
    restInvertible := fun _ _ => true
    restOpq := fun s => s.opq
    realImpr := fun _ v => .ok v
    clock := fun _ => 0
    callTime := fun _ => 0 }

/-- The object of the example, in the state after a call. -/
def objSeed (r : OptResult (Unit × ℕ)) : SObj Unit ℕ :=
  { P := P, env := envSeed, attrs := r.final.mapOpq Prod.fst }

/-- The result of `optimize(1)`, `optimize(1)` on a new object, with the generator set to `g` between the
two calls if `g` is given. -/
def twoCallsSeed (g : Option ℕ) : Option (List Pt × ℕ) :=
  match (optimize P envSeed 40 1 (Alg.init P ((), 0))).result? with
  | none => none
  | some r =>
    match (optimize P envSeed 40 1 ((objSeed r).alg (g.getD r.final.opq.2))).result? with
    | none => none
    | some r' => some (r'.final.all.pos, r'.itercount)

theorem twoCallsSeed_plain : twoCallsSeed none = some ([[0], [10], [1], [2]], 2) := by decide +kernel

theorem twoCallsSeed_reset : twoCallsSeed (some 0) = some ([[0], [10], [1]], 2) := by decide +kernel

end Demo

/-- **C93** (violated part) The generator is shared by all objects of the process: constructing another
object between two `optimize()` calls resets it, so that the second call may repeat the random choices of
the first and the run is not the one that would have taken place otherwise. -/
theorem C93_violated_second_object_interferes :
    ∃ (seed : ℕ → ℕ) (P : Params) (env : Env (Unit × ℕ)) (s t u v : Session Unit ℕ)
      (rs rs' : List (OptResult (Unit × ℕ))),
      (∃ rs0, SCalls 0 [1] (({ objs := [], rng := 5 } : Session Unit ℕ).construct seed P env () 7) rs0 s) ∧
      t = s.construct seed P env () 7 ∧ SRunWithout seed 0 s t ∧
      SCalls 0 [1] s rs u ∧ SCalls 0 [1] t rs' v ∧
      rs.map (fun r => r.final.all.pos) ≠ rs'.map (fun r => r.final.all.pos) := by
  have h0 := Demo.twoCallsSeed_plain
  have h1 := Demo.twoCallsSeed_reset
  unfold Demo.twoCallsSeed at h0 h1
  cases hr : optimize Demo.P Demo.envSeed 40 1 (Alg.init Demo.P ((), 0)) with
  | raised e => rw [hr] at h0; cases h0
  | outOfFuel => rw [hr] at h0; cases h0
  | ret r =>
    rw [hr] at h0 h1
    simp only [OptRes.result?, Option.getD_none, Option.getD_some] at h0 h1
    cases h2 : optimize Demo.P Demo.envSeed 40 1 ((Demo.objSeed r).alg r.final.opq.2) with
    | raised e => rw [h2] at h0; cases h0
    | outOfFuel => rw [h2] at h0; cases h0
    | ret r2 =>
      cases h3 : optimize Demo.P Demo.envSeed 40 1 ((Demo.objSeed r).alg 0) with
      | raised e => rw [h3] at h1; cases h1
      | outOfFuel => rw [h3] at h1; cases h1
      | ret r3 =>
        rw [h2] at h0
        rw [h3] at h1
        simp only [OptRes.result?, Option.some.injEq, Prod.mk.injEq] at h0 h1
        let s : Session Unit ℕ := { objs := [Demo.objSeed r], rng := r.final.opq.2 }
        let t : Session Unit ℕ := s.construct (fun _ => 0) Demo.P Demo.envSeed () 7
        refine ⟨fun _ => 0, Demo.P, Demo.envSeed, s, t, s.afterCall 0 (Demo.objSeed r) r2,
          t.afterCall 0 (Demo.objSeed r) r3, [r2], [r3], ⟨[r], ?_⟩, rfl, ?_, ?_, ?_, ?_⟩
        · exact .cons (b := { P := Demo.P, env := Demo.envSeed, attrs := Alg.init Demo.P () }) (fuel := 40)
            rfl hr (.nil _)
        · exact .step (.refl _) (.construct _ _ _ _ _) (by simp)
        · exact .cons (b := Demo.objSeed r) (fuel := 40) rfl h2 (.nil _)
        · exact .cons (b := Demo.objSeed r) (fuel := 40) rfl h3 (.nil _)
        · simp only [List.map_cons, List.map_nil, h0.1, h1.1]
          decide

-- The hypotheses of `C93_reproducible` are met by two processes with different pasts.
example : ∃ (rs rs' : List (OptResult (Unit × ℕ))) (u v : Session Unit ℕ),
    SCalls 0 [1] (({ objs := [], rng := 5 } : Session Unit ℕ).construct (fun n => n) Demo.P Demo.envSeed () 0)
      rs u ∧
    SCalls 1 [1] ((({ objs := [], rng := 9 } : Session Unit ℕ).construct (fun n => n) Demo.P Demo.envSeed ()
      3).construct (fun n => n) Demo.P Demo.envSeed () 0) rs' v := by
  have h0 := Demo.twoCallsSeed_plain
  unfold Demo.twoCallsSeed at h0
  cases hr : optimize Demo.P Demo.envSeed 40 1 (Alg.init Demo.P ((), 0)) with
  | raised e => rw [hr] at h0; cases h0
  | outOfFuel => rw [hr] at h0; cases h0
  | ret r =>
    exact ⟨[r], [r], _, _,
      .cons (b := { P := Demo.P, env := Demo.envSeed, attrs := Alg.init Demo.P () }) (fuel := 40)
        rfl hr (.nil _),
      .cons (b := { P := Demo.P, env := Demo.envSeed, attrs := Alg.init Demo.P () }) (fuel := 40)
        rfl hr (.nil _)⟩

end Rbfopt
