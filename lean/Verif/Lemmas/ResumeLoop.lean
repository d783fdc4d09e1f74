import Verif.Lemmas.Resume

/-! # Pausing and resuming: the main loop -/

namespace Rbfopt

variable {O : Type} {P : Params} {env : Env O} {s : Alg O} {e : ℚ}

theorem dispatch_go_mode {s' : Alg O} {next : Option Pt} {ref : Option RefProposal}
    (h : dispatch P env s = .ok (.go s' next ref)) : s'.mode = s.mode :=
  (dispatch_go h).1.mode

theorem pass_withE (he : env.IgnoresElapsed) (hc : P.maxClock = ⊤) (hm : s.mode = .accurate)
    (loc loc' : Loc) :
    PassRel e loc loc' (pass P env s loc) (pass P env (s.withE e) loc') := by
  unfold pass
  dsimp only
  rw [show (s.withE e).step = s.step from rfl]
  split
  · exact ⟨rfl, Or.inr ⟨rfl, rfl⟩⟩
  · have h1 : restartIfNeeded P env (Alg.withE { s with passes := s.passes + 1 } e) =
        (restartIfNeeded P env { s with passes := s.passes + 1 }).map (fun x => x.withE e) := by
      unfold restartIfNeeded
      rw [show shouldRestart P (Alg.withE { s with passes := s.passes + 1 } e) =
        shouldRestart P { s with passes := s.passes + 1 } from rfl]
      split
      · exact restart_withE he
      · rfl
    have h1' : restartIfNeeded P env { s with passes := s.passes + 1, elapsed := e } = _ := h1
    conv => rhs; dsimp only [Alg.withE]
    rw [h1']
    have hmode : ∀ s1, restartIfNeeded P env { s with passes := s.passes + 1 } = .ok s1 →
        s1.mode = s.mode := by
      intro s1 h1
      rcases restartIfNeeded_cases h1 with ⟨_, hr⟩ | ⟨_, rfl⟩
      · obtain ⟨tb, calls, m, M, i, ho⟩ := restart_spec hr
        exact ho.mode
      · rfl
    generalize restartIfNeeded P env { s with passes := s.passes + 1 } = x at hmode
    cases x with
    | error x => exact rfl
    | ok s1 =>
      have hm1 : s1.mode = .accurate := (hmode s1 rfl).trans hm
      show PassRel e loc loc' _ (match env.prep (s1.withE e) with
        | .error e => .error e
        | .ok o =>
          match buildModel P env { s1 with elapsed := e, opq := o } with
          | .error e => .error e
          | .ok (s, true) => .ok (s, loc')
          | .ok (s, false) =>
            match dispatch P env s with
            | .error e => .error e
            | .ok (.skip s) => .ok (s, loc')
            | .ok (.go s next ref) =>
              match processPoint P env s loc' next ref with
              | .error e => .error e
              | .ok (s, loc) =>
                match endPass P s with
                | .error e => .error e
                | .ok s => .ok (s, loc))
      rw [he.prep]
      dsimp only
      cases env.prep s1 with
      | error x => exact rfl
      | ok o =>
        dsimp only
        have h2 : buildModel P env { s1 with elapsed := e, opq := o } = _ :=
          buildModel_withE (s := { s1 with opq := o }) (e := e) he
        rw [h2]
        have hbm : ∀ s2 b, buildModel P env { s1 with opq := o } = .ok (s2, b) →
            s2.mode = .accurate := by
          intro s2 b hb
          have e2 := congrArg Data.mode (buildModel_data hb)
          have e3 : s2.mode = s1.mode := e2
          rw [e3, hm1]
        generalize buildModel P env { s1 with opq := o } = y at hbm
        cases y with
        | error x => exact rfl
        | ok y =>
          obtain ⟨s2, b⟩ := y
          have hm2 := hbm s2 b rfl
          simp only [Except.map]
          cases b with
          | true => exact ⟨rfl, Or.inr ⟨rfl, rfl⟩⟩
          | false =>
            dsimp only
            rw [dispatch_withE he]
            have hdm : ∀ s3 n r, dispatch P env s2 = .ok (.go s3 n r) → s3.mode = .accurate :=
              fun s3 n r h => (dispatch_go_mode h).trans hm2
            generalize dispatch P env s2 = z at hdm
            cases z with
            | error x => exact rfl
            | ok z =>
              cases z with
              | skip s3 => exact ⟨rfl, Or.inr ⟨rfl, rfl⟩⟩
              | go s3 next ref =>
                have hm3 := hdm s3 next ref rfl
                simp only [Except.map, Dispatch.withE]
                have hp := processPoint_withE (e := e) he hc hm3 loc loc' next ref
                generalize processPoint P env s3 loc next ref = u at hp
                generalize processPoint P env (s3.withE e) loc' next ref = v at hp
                cases u with
                | error x =>
                  cases v with
                  | error y => exact hp
                  | ok y => exact hp.elim
                | ok x =>
                  cases v with
                  | error y => exact hp.elim
                  | ok y =>
                    obtain ⟨s4, l4⟩ := x
                    obtain ⟨s5, l5⟩ := y
                    obtain ⟨rfl, hl⟩ := hp
                    dsimp only
                    rw [endPass_withE]
                    generalize endPass P s4 = w
                    cases w with
                    | error x => exact rfl
                    | ok s6 => exact ⟨rfl, hl⟩

/-- Outcomes of the loop that differ only in the elapsed time. -/
def LoopRel (e : ℚ) : LoopRes O → LoopRes O → Prop
  | .raised x, .raised y => x = y
  | .done s1 _, .done s2 _ => s2 = s1.withE e
  | .outOfFuel, .outOfFuel => True
  | _, _ => False

theorem loop_withE {o : O} (he : env.IgnoresElapsed) (hc : P.maxClock = ⊤)
    (hP : P.twoPhase = false) {start k k' fuel : ℕ} {loc loc' : Loc}
    (hr : Reach P env o (.running (start + k) k' loc') (s.withE e))
    (hl : loc.gap = loc'.gap ∨ ((P.epsOpt : EVal) < loc.gap ∧ (P.epsOpt : EVal) < loc'.gap)) :
    LoopRel e (loop P env start (k + k') fuel s loc)
      (loop P env (start + k) k' fuel (s.withE e) loc') := by
  have hcond : ∀ {s : Alg O} {loc loc' : Loc},
      Reach P env o (.running (start + k) k' loc') (s.withE e) →
      (loc.gap = loc'.gap ∨ ((P.epsOpt : EVal) < loc.gap ∧ (P.epsOpt : EVal) < loc'.gap)) →
      loopCond P env (start + k) k' (s.withE e) loc' = loopCond P env start (k + k') s loc := by
    intro s loc loc' hr hl
    have hge : start + k ≤ s.itercount := hr.iter.2.1
    have hgap : (P.epsOpt : EVal) < loc'.gap ↔ (P.epsOpt : EVal) < loc.gap := by
      rcases hl with hl | ⟨h1, h2⟩
      · rw [hl]
      · simp [h1, h2]
    rw [Bool.eq_iff_iff, loopCond_iff, loopCond_iff, hgap, hc]
    refine and_congr ?_ (and_congr Iff.rfl (and_congr Iff.rfl (and_congr Iff.rfl (and_congr Iff.rfl
      (and_congr ?_ Iff.rfl)))))
    · show s.itercount - (start + k) < k' ↔ _
      omega
    · simp
  induction fuel generalizing s loc loc' with
  | zero =>
    simp only [loop, hcond hr hl]
    split
    · trivial
    · exact rfl
  | succ fuel ih =>
    simp only [loop, hcond hr hl]
    split
    · rename_i hlc
      have hm : s.mode = .accurate := by
        have := hr.modeOK
        cases hm : s.mode with
        | accurate => rfl
        | noisy =>
          have := this (show (s.withE e).mode = .noisy from hm)
          rw [hP] at this; cases this
      have hp := pass_withE (e := e) he hc hm loc loc'
      generalize h1 : pass P env s loc = u at hp
      generalize h2 : pass P env (s.withE e) loc' = v at hp
      cases u with
      | error x =>
        cases v with
        | error y => exact hp
        | ok y => exact hp.elim
      | ok x =>
        cases v with
        | error y => exact hp.elim
        | ok y =>
          obtain ⟨s4, l4⟩ := x
          obtain ⟨s5, l5⟩ := y
          obtain ⟨rfl, hl'⟩ := hp
          dsimp only
          refine ih (hr.pass ((hcond hr hl).trans hlc) h2) ?_
          rcases hl' with hl' | ⟨e1, e2⟩
          · exact Or.inl hl'
          · rw [e1, e2]; exact hl
    · exact rfl

/-- A call that ended can be prolonged: a call with a longer pause length does the same passes
first. -/
theorem loop_prolong {start k k' fuel : ℕ} {loc : Loc} {s2 : Alg O} {loc2 : Loc} (hkk : k ≤ k')
    (h : loop P env start k fuel s loc = .done s2 loc2) :
    ∃ n ≤ fuel, ∀ m, loop P env start k' (n + m) s loc = loop P env start k' m s2 loc2 := by
  have mono : ∀ {s : Alg O} {loc : Loc}, loopCond P env start k s loc = true →
      loopCond P env start k' s loc = true := by
    intro s loc h
    rw [loopCond_iff] at h ⊢
    exact ⟨by omega, h.2⟩
  induction fuel generalizing s loc with
  | zero =>
    simp only [loop] at h
    split at h
    · cases h
    · cases h; exact ⟨0, le_rfl, fun m => by rw [Nat.zero_add]⟩
  | succ fuel ih =>
    simp only [loop] at h
    split at h
    · rename_i hc
      split at h
      · cases h
      · rename_i s1 l1 hp
        obtain ⟨n, hn, hh⟩ := ih h
        refine ⟨n + 1, by omega, fun m => ?_⟩
        rw [Nat.add_right_comm]
        simp only [loop]
        rw [if_pos (mono hc), hp]
        exact hh m
    · cases h; exact ⟨0, by omega, fun m => by rw [Nat.zero_add]⟩

end Rbfopt
