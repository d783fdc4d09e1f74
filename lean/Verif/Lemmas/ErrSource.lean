import Verif.Lemmas.More
import Verif.Props.HonestLog

/-!
# Where the recorded error intervals come from
-/

namespace Rbfopt

variable {O : Type}

/-- The changes a pass can make before a point is evaluated. -/
inductive PreMicro (P : Params) (env : Env O) : Alg O → Alg O → Prop
  | ctrl {s s'} : s'.data = s.data → PreMicro P env s s'
  | restart {s s'} : restart P env s = .ok s' → PreMicro P env s s'
  | removeLocal {s s'} (i : ℕ) : P.twoPhase = true → s.mode = .accurate →
      removeNode s i s.nAtRestart = .ok s' → PreMicro P env s s'
  | erase {s : Alg O} (is : List ℕ) : P.twoPhase = true → s.mode = .accurate →
      PreMicro P env s { s with cur := { s.cur with
        err := s.cur.err.mapIdx (fun i e => if i ∈ is then (0, 0) else e) } }
  | removeRest {s s'} (i : ℕ) (p : Pt) (t : Alg O) :
      restorationLoop P env t P.maxConsRest (t.cur.pos.length - 1) = some (i, p) →
      removeNode s i s.nAtRestart = .ok s' → PreMicro P env s s'

inductive PreMicros (P : Params) (env : Env O) : Alg O → Alg O → Prop
  | refl (s) : PreMicros P env s s
  | tail {s t u} : PreMicros P env s t → PreMicro P env t u → PreMicros P env s u

theorem PreMicros.single {P : Params} {env : Env O} {s t : Alg O} (h : PreMicro P env s t) :
    PreMicros P env s t := .tail (.refl s) h

theorem PreMicros.trans {P : Params} {env : Env O} {s t u : Alg O} (h : PreMicros P env s t)
    (h' : PreMicros P env t u) : PreMicros P env s u := by
  induction h' with
  | refl => exact h
  | tail _ hm ih => exact .tail ih hm

theorem PreMicros.ctrl {P : Params} {env : Env O} {s t : Alg O} (h : t.data = s.data) :
    PreMicros P env s t := .single (.ctrl h)

theorem restorationSearch_pre {P : Params} {env : Env O} {s s' : Alg O} {q : Option Pt}
    (h : restorationSearch P env s = .ok (q, s')) : PreMicros P env s s' := by
  unfold restorationSearch at h
  split at h
  · cases h; exact .ctrl rfl
  · rename_i i p hl
    split at h
    · cases h
    · rename_i s1 h1
      cases h
      exact .tail (.ctrl (t := { s with opq := env.restOpq s }) rfl) (.removeRest i p s hl h1)

theorem localDispatch_pre {P : Params} {env : Env O} {s s' : Alg O} {lp : LocalProposal}
    {q : Option Pt} {ref : Option RefProposal}
    (h : localDispatch P env s lp = .ok (.go s' q ref)) : PreMicros P env s s' := by
  unfold localDispatch at h
  split at h
  · rename_i hc
    split at h
    · split at h
      · cases h
      · split at h
        · split at h
          · split at h
            · cases h
            · rename_i s1 h1
              cases h
              exact .single (.removeLocal _ hc.1 hc.2 h1)
          · cases h; exact .refl _
        · cases h
    · cases h; exact .refl _
  · cases h; exact .refl _

theorem eraseErr_pre {P : Params} {env : Env O} (s : Alg O) (is : List ℕ) :
    PreMicros P env s (eraseErr P s is) := by
  unfold eraseErr
  split
  · rename_i hc
    exact .single (.erase is hc.1 hc.2)
  · exact .refl _

theorem dispatch_pre {P : Params} {env : Env O} {s : Alg O} {d : Dispatch O}
    (h : dispatch P env s = .ok d) : PreMicros P env s d.st := by
  unfold dispatch at h
  split at h
  · split at h
    · cases h
    · cases h; exact .ctrl rfl
  · split at h
    · split at h
      · cases h
      · rename_i s1 h1
        have m1 := restorationSearch_pre h1
        split at h
        · cases h; exact .tail m1 (.ctrl rfl)
        · split at h
          · cases h
          · rename_i s2 h2
            cases h; exact .tail m1 (.restart h2)
      · rename_i p s1 h1
        have m1 := restorationSearch_pre h1
        cases h; exact m1
    · split at h
      · split at h
        · cases h
        · rename_i lp o _
          cases d with
          | go s' q r =>
            have m : PreMicros P env s { s with opq := o } := .ctrl rfl
            exact (m.trans (eraseErr_pre _ _)).trans (localDispatch_pre h)
          | skip s' => exact absurd h localDispatch_not_skip
      · split at h
        · split at h
          · cases h
          · cases h; exact .ctrl rfl
        · split at h
          · cases h
          · cases h; exact .ctrl rfl

theorem restartIfNeeded_pre {P : Params} {env : Env O} {s s' : Alg O}
    (h : restartIfNeeded P env s = .ok s') : PreMicros P env s s' := by
  unfold restartIfNeeded at h
  split at h
  · exact .single (.restart h)
  · cases h; exact .refl _

/-- An error interval returned by a call of `evaluate_noisy()`. -/
def IntervalIn (log : List Call) (e : ℚ × ℚ) : Prop := ∃ x v, Call.noisy x v e.1 e.2 ∈ log

/-- All recorded error intervals are empty or were returned by `evaluate_noisy()`. -/
def ErrSrc (s : Alg O) : Prop := ∀ e ∈ s.all.err, e = (0, 0) ∨ IntervalIn s.log e

/-- So is the interval kept in the local variables of the call. -/
def ErrSrcCtl : Ctl → Alg O → Prop
  | .idle, s => ErrSrc s
  | .running _ _ loc, s => ErrSrc s ∧ ∀ e, loc.err = some e → IntervalIn s.log e

theorem IntervalIn.mono {l l' : List Call} {e : ℚ × ℚ} (h : IntervalIn l e) (hl : l <+: l') :
    IntervalIn l' e := by
  obtain ⟨x, v, h⟩ := h
  exact ⟨x, v, hl.subset h⟩

theorem ErrSrc.grow {s t : Alg O} (h : ErrSrc s) (hl : s.log <+: t.log)
    (he : ∀ e ∈ t.all.err, e ∈ s.all.err ∨ e = (0, 0) ∨ IntervalIn t.log e) : ErrSrc t := by
  intro e h1
  rcases he e h1 with h2 | h2
  · exact (h e h2).imp_right (fun h => h.mono hl)
  · exact h2

theorem ErrSrc.pre {P : Params} {env : Env O} {s t : Alg O} (h : ErrSrc s) (hm : PreMicro P env s t) :
    ErrSrc t ∧ s.log <+: t.log := by
  cases hm with
  | ctrl e =>
    have e1 : t.log = s.log := congrArg Data.log e
    have e2 : t.all = s.all := congrArg Data.all e
    refine ⟨h.grow (by rw [e1]; exact List.prefix_rfl) (fun x hx => Or.inl (by rwa [e2] at hx)), by rw [e1]; exact List.prefix_rfl⟩
  | restart hr =>
    obtain ⟨tb, calls, m, M, i, ho⟩ := restart_spec hr
    have hl : s.log <+: t.log := ⟨calls, ho.log.symm⟩
    refine ⟨h.grow hl (fun e he => ?_), hl⟩
    rw [ho.all] at he
    rcases List.mem_append.mp he with he | he
    · exact Or.inl he
    · obtain ⟨k, hk⟩ := List.getElem?_of_mem he
      obtain ⟨a1, a2, a3⟩ := ho.aligned
      have hlt := (List.getElem?_eq_some_iff.mp hk).1
      have hrec := ho.recs k _ _ _ e (List.getElem?_eq_getElem (by omega))
        (List.getElem?_eq_getElem (by omega)) (List.getElem?_eq_getElem (by omega)) hk
      rcases hrec with ⟨_, _, h1⟩ | ⟨h1, -, -⟩ | ⟨⟨k', _, _, _, h1⟩, _⟩ | ⟨_, _, _, h1, _⟩
      · exact Or.inr (Or.inl h1)
      · exact Or.inr (Or.inr ⟨_, _, by rw [ho.log]; exact List.mem_append_right s.log h1⟩)
      · exact Or.inl (List.mem_of_getElem? h1)
      · exact Or.inr (Or.inl h1)
  | removeLocal i _ _ hr =>
    obtain ⟨_, _, rfl⟩ := removeNode_spec hr
    exact ⟨fun e he => h e (List.mem_of_mem_eraseIdx he), List.prefix_rfl⟩
  | erase is _ _ => exact ⟨h, List.prefix_rfl⟩
  | removeRest i p t' _ hr =>
    obtain ⟨_, _, rfl⟩ := removeNode_spec hr
    exact ⟨fun e he => h e (List.mem_of_mem_eraseIdx he), List.prefix_rfl⟩

theorem ErrSrc.pres {P : Params} {env : Env O} {s t : Alg O} (h : ErrSrc s)
    (hm : PreMicros P env s t) : ErrSrc t ∧ s.log <+: t.log := by
  induction hm with
  | refl => exact ⟨h, List.prefix_rfl⟩
  | tail _ hm ih =>
    obtain ⟨h1, h2⟩ := ih.1.pre hm
    exact ⟨h1, ih.2.trans h2⟩

/-- Evaluating a point: the interval obtained was returned by this call, or is the one kept. -/
theorem evaluateNext_err {P : Params} {env : Env O} {s : Alg O} {loc : Loc} {orig : Pt}
    {r : EvalRes O} (h : evaluateNext P env s loc orig = .ok r) :
    s.log <+: r.s.log ∧ r.s.all = s.all ∧
    ∀ e, r.err = some e → loc.err = some e ∨ IntervalIn r.s.log e := by
  have hu : ∀ (a : Alg O) v g, (updateLog a v g).log = a.log ∧ (updateLog a v g).all = a.all := by
    intro a v g
    obtain ⟨g', st, e⟩ := updateLog_frame a v g
    rw [e]; exact ⟨rfl, rfl⟩
  unfold evaluateNext at h
  split at h
  · split at h
    · cases h; exact ⟨List.prefix_rfl, rfl, fun e he => Or.inl he⟩
    · cases h; exact ⟨⟨_, rfl⟩, rfl, fun e he => Or.inl he⟩
  · have hf : s.log <+: (noisyFirst P env s loc orig).s.log ∧
        (noisyFirst P env s loc orig).s.all = s.all ∧
        ∀ e, (noisyFirst P env s loc orig).err = some e →
          loc.err = some e ∨ IntervalIn (noisyFirst P env s loc orig).s.log e := by
      unfold noisyFirst
      split
      · exact ⟨List.prefix_rfl, rfl, fun e he => Or.inl he⟩
      · refine ⟨⟨_, rfl⟩, rfl, fun e he => Or.inr ?_⟩
        cases he
        exact ⟨_, _, List.mem_append_right _ (List.mem_singleton.mpr rfl)⟩
    dsimp only at h
    split at h
    · split at h
      · cases h
      · rename_i e he
        split at h
        · cases h
          refine ⟨hf.1.trans ?_, ?_, fun e he => (hf.2.2 e he).imp_right (fun h => h.mono ?_)⟩
          · refine ⟨[Call.acc (env.decode orig) (env.evalAcc (updateLog (noisyFirst P env s loc orig).s
                (noisyFirst P env s loc orig).val loc.gap).log (env.decode orig))], ?_⟩
            simp only [objfun, (hu _ _ _).1]
          · simp only [objfun, (hu _ _ _).2]; exact hf.2.1
          · refine ⟨[Call.acc (env.decode orig) (env.evalAcc (updateLog (noisyFirst P env s loc orig).s
                (noisyFirst P env s loc orig).val loc.gap).log (env.decode orig))], ?_⟩
            simp only [objfun, (hu _ _ _).1]
        · cases h; exact hf
    · cases h; exact hf

theorem Reach.errSrc {P : Params} {env : Env O} {o : O} {c : Ctl} {s : Alg O}
    (h : Reach P env o c s) : ErrSrcCtl c s := by
  refine h.inv_pass (I := ErrSrcCtl) ?_ ?_ ?_ (fun s _ _ _ _ h _ => h.1) (fun s _ _ _ _ h => h.1)
  · intro e he; simp [Alg.init] at he
  · intro s s' loc pause hr hs h
    obtain ⟨h1, -, ⟨-, h2⟩ | ⟨-, rfl⟩⟩ := serialStart_cases h
    · exact ⟨(ErrSrc.pre hs (.restart h2)).1, by rw [h1]; simp⟩
    · exact ⟨hs, by rw [h1]; simp⟩
  · intro s s' start pause loc loc' hr hs hc hp
    have m0 : PreMicros P env s { s with passes := s.passes + 1 } := .ctrl rfl
    have done : PreMicros P env s s' → loc' = loc → ErrSrcCtl (.running start pause loc') s' := by
      intro hm e
      obtain ⟨h1, h2⟩ := hs.1.pres hm
      rw [e]
      exact ⟨h1, fun e he => (hs.2 e he).mono h2⟩
    cases pass_inv hp with
    | skip _ hs' hl => exact done (by rw [hs']; exact .tail m0 (.ctrl rfl)) hl
    | linFail s1 o _ h1 h2 h3 hl =>
      refine done ?_ hl
      have m2 : PreMicros P env s { s1 with opq := o } := .tail (m0.trans (restartIfNeeded_pre h1)) (.ctrl rfl)
      exact .tail m2 (.ctrl (buildModel_data h3))
    | cont s1 s2 o _ h1 h2 h3 h4 hl =>
      refine done ?_ hl
      have m2 : PreMicros P env s { s1 with opq := o } := .tail (m0.trans (restartIfNeeded_pre h1)) (.ctrl rfl)
      have m3 := m2.tail (.ctrl (buildModel_data h3))
      exact m3.trans (dispatch_pre h4)
    | iter s1 s2 s3 s4 o' next ref hp =>
      have m2 : PreMicros P env s { s1 with opq := o' } :=
        .tail (m0.trans (restartIfNeeded_pre hp.restart)) (.ctrl rfl)
      have m3 := m2.tail (.ctrl (buildModel_data hp.build))
      have m4 : PreMicros P env s s3 := m3.trans (dispatch_pre hp.disp)
      obtain ⟨i1, i2⟩ := hs.1.pres m4
      have hloc : ∀ e, loc.err = some e → IntervalIn s3.log e := fun e he => (hs.2 e he).mono i2
      obtain ⟨-, -, -, -, -, -, -, -, f1, f2, -⟩ := endPass_ctl hp.fin
      rcases processPoint_cases hp.proc with ⟨e1, e⟩ |
        ⟨p0, d, r, t1, gap, t2, rfl, hd, hlt, hev, hadd, hgap, haft, rfl, rfl⟩
      · rw [e]
        have g1 : s'.all = s3.all := by rw [f1, e1]; rfl
        have g2 : s'.log = s3.log := by rw [f2, e1]; rfl
        refine ⟨?_, ?_⟩
        · intro x hx; rw [g1] at hx; rw [g2]; exact i1 x hx
        · rw [g2]; exact hloc
      · obtain ⟨v1, v2, v3⟩ := evaluateNext_err hev
        obtain ⟨e, ha, hz, hnz⟩ := addResult_spec hadd
        obtain ⟨g, st, hul⟩ := updateLog_frame t1 r.val gap
        have e1 : t2.all = (updateLog t1 r.val gap).all := congrArg Data.all (afterAdd_data haft)
        have e2 : t2.log = (updateLog t1 r.val gap).log := congrArg Data.log (afterAdd_data haft)
        rw [hul] at e1 e2
        have g1 : s'.all = t1.all := f1.trans e1
        have g2 : s'.log = r.s.log := f2.trans (e2.trans ha.rest.1)
        have hr : ∀ e, r.err = some e → IntervalIn r.s.log e := fun e he => by
          rcases v3 e he with h | h
          · exact (hloc e h).mono v1
          · exact h
        refine ⟨?_, by rw [g2]; exact hr⟩
        intro x hx
        rw [g1, ha.all, v2] at hx
        rw [g2]
        rcases List.mem_append.mp hx with hx | hx
        · exact (i1 x hx).imp_right (fun h => h.mono v1)
        · rw [List.mem_singleton] at hx
          subst hx
          cases hb : r.isNoisy with
          | false => exact Or.inl (hz hb)
          | true => exact Or.inr (hr _ (hnz hb))

end Rbfopt
