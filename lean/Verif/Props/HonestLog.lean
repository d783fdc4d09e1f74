import Verif.Spec.HonestLog
import Verif.Lemmas.Invariants
import Verif.Lemmas.ParallelBook

/-!
# The list of calls is what the black box answered (C01, C03)
-/

namespace Rbfopt

variable {O : Type} {P : Params} {env : Env O} {o : O}

theorem HonestLog.nil : HonestLog env [] := by intro k call h; simp at h

theorem HonestLog.snoc {log : List Call} {call : Call} (h : HonestLog env log)
    (hc : call.AnsweredBy env log) : HonestLog env (log ++ [call]) := by
  intro k c hk
  rcases Nat.lt_trichotomy k log.length with hlt | heq | hgt
  · rw [List.getElem?_append_left hlt] at hk
    have := h k c hk
    rw [List.take_append_of_le_length hlt.le]
    exact this
  · subst heq
    simp only [List.getElem?_concat_length, Option.some.injEq] at hk
    subst hk
    simpa using hc
  · rw [List.getElem?_eq_none (by simp; omega)] at hk
    cases hk

theorem HonestLog.objfun {s : Alg O} {p : Pt} (h : HonestLog env s.log) :
    HonestLog env (objfun env s p).2.log := h.snoc rfl

theorem HonestLog.objfunNoisy {s : Alg O} {p : Pt} (h : HonestLog env s.log) :
    HonestLog env (objfunNoisy env s p).2.log := h.snoc rfl

theorem HonestLog.evalList {ps : List Pt} {s : Alg O} (h : HonestLog env s.log) :
    HonestLog env (evalList env s ps).2.log := by
  induction ps generalizing s with
  | nil => exact h
  | cons p ps ih => exact ih (h.objfun (p := p))

theorem HonestLog.evalNoisyList {ps : List Pt} {s : Alg O} (h : HonestLog env s.log) :
    HonestLog env (evalNoisyList env s ps).2.log := by
  induction ps generalizing s with
  | nil => exact h
  | cons p ps ih => exact ih (h.objfunNoisy (p := p))

theorem HonestLog.updateLog {s : Alg O} {v : ℚ} {g : EVal} (h : HonestLog env s.log) :
    HonestLog env (updateLog s v g).log := by
  obtain ⟨g', st, e⟩ := updateLog_frame s v g
  rw [e]; exact h

theorem HonestLog.restartSample {s s' : Alg O} {t : Table} (h : HonestLog env s.log)
    (he : restartSample P env s = .ok (t, s')) : HonestLog env s'.log := by
  unfold Rbfopt.restartSample at he
  split at he
  · split at he
    · cases he
    · dsimp only at he
      split at he
      · cases he
      · split at he
        · cases he
          exact HonestLog.evalList (s := { s with opq := _ }) h
        · split at he
          · cases he
          · cases he
            exact HonestLog.evalNoisyList (s := { s with opq := _ }) h
  · cases he; exact h

theorem HonestLog.restartUser {s s' : Alg O} {t t' : Table} (h : HonestLog env s.log)
    (he : restartUser P env t s = .ok (t', s')) : HonestLog env s'.log := by
  unfold Rbfopt.restartUser at he
  split at he
  · dsimp only at he
    split at he
    · cases he
      exact HonestLog.evalList h
    · cases he; exact h
  · cases he; exact h

theorem HonestLog.restart {s s' : Alg O} (h : HonestLog env s.log)
    (he : restart P env s = .ok s') : HonestLog env s'.log := by
  unfold Rbfopt.restart at he
  dsimp only at he
  split at he
  · cases he
  · rename_i t s1 h1
    split at he
    · cases he
    · rename_i t2 s2 h2
      obtain ⟨m, M, i, hi⟩ := restartInstall_spec he
      rw [hi.log]
      have h' := HonestLog.restartSample (P := P) (s' := s1) (t := t)
        (s := { s with numNoisyRestarts := s.numNoisyRestarts + (if s.mode = .noisy then 1 else 0)
                       nAtRestart := s.all.pos.length }) h h1
      exact h'.restartUser h2

theorem HonestLog.evaluateNext {s : Alg O} {loc : Loc} {orig : Pt} {r : EvalRes O}
    (h : HonestLog env s.log) (he : evaluateNext P env s loc orig = .ok r) : HonestLog env r.s.log := by
  have hn : HonestLog env (noisyFirst P env s loc orig).s.log := by
    unfold noisyFirst
    split
    · exact h
    · exact h.objfunNoisy
  unfold Rbfopt.evaluateNext at he
  split at he
  · split at he
    · cases he; exact h
    · cases he; exact h.objfun
  · dsimp only at he
    split at he
    · split at he
      · cases he
      · split at he
        · cases he
          exact (HonestLog.updateLog hn).objfun
        · cases he; exact hn
    · cases he; exact hn

theorem HonestLog.micro {s t : Alg O} (h : HonestLog env s.log) (hm : Micro P env s t) :
    HonestLog env t.log := by
  cases hm with
  | ctrl e => have : t.log = s.log := congrArg Data.log e; rw [this]; exact h
  | log v g => exact h.updateLog
  | restart hr => exact h.restart hr
  | removeLocal i _ _ hr => obtain ⟨_, _, rfl⟩ := removeNode_spec hr; exact h
  | erase is _ _ => exact h
  | removeRest i p t _ hr => obtain ⟨_, _, rfl⟩ := removeNode_spec hr; exact h
  | add loc p0 d r _ _ he ha =>
    have h1 := h.evaluateNext he
    unfold addResult at ha
    split at ha
    · split at ha
      · cases ha
      · cases ha
        rw [(addNoisyNode_spec _ _ _ _ _ _).rest.1]; exact h1
    · cases ha
      rw [(addNode_spec _ _ _ _).rest.1]; exact h1
  | phase => exact h

/-- **C01** The values in the list of calls, from which all recorded values come, are exactly what the
user's functions return: the k-th call carries the answer of the black box at its point, given the
calls before. -/
theorem C01_values_are_answers {c : Ctl} {s : Alg O} (h : Reach P env o c s) :
    HonestLog env s.log :=
  h.inv (I := fun s => HonestLog env s.log) HonestLog.nil (fun _ _ h hm => h.micro hm)

end Rbfopt
