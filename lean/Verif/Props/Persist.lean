import Verif.Lemmas.Persist

/-!
# C14, C15: saving, loading, crashes
-/

namespace Rbfopt

variable {X R : Type} {P : Params}

/-- Inside a call of `optimize()` the best value is finite. -/
theorem running_fbest {O : Type} {env : Env O} {o : O} {c : Ctl} {s : Alg O}
    (hP : P.twoPhase = false) (hd : ∀ p, env.dist p p ≤ P.minDist)
    (hr : Reach P env o c s) : c ≠ .idle → s.fbest ≠ ⊤ := by
  refine hr.inv_pass (I := fun c s => c ≠ .idle → s.fbest ≠ ⊤) (fun h => absurd rfl h) ?_ ?_
    (fun _ _ _ _ _ _ _ h => absurd rfl h) (fun _ _ _ _ _ _ h => absurd rfl h)
  · intro s s' loc pause hr0 _ hs _
    have hr1 : Reach P env o (.running s.itercount pause loc) s' := hr0.call pause hs
    obtain ⟨-, hg, -⟩ := serialStart_cases hs
    rcases hr1.best hP hd with hb | ⟨f, b, M, -, hb, -⟩
    · exfalso
      unfold currentGap at hg
      rw [hb.1] at hg
      simp at hg
    · rw [hb]; exact WithTop.coe_ne_top
  · intro s s' start pause loc loc' hr0 ih _ hp _ htop
    have hmon := (fbest_micros hr0.wf (pass_micros hp)).1
    rw [htop, top_le_iff] at hmon
    exact ih (by simp) hmon

/-- Continuing, in a new call, from a state between two passes of a call. -/
theorem resume_between_passes {O : Type} {env : Env O} {o : O} {s s1 s2 : Alg O} {loc loc2 : Loc}
    (hP : P.twoPhase = false) (hd : ∀ p, env.dist p p = 0)
    (hm : 0 ≤ P.minDist) (hz : 0 < P.epsZero) (hc : P.maxClock = ⊤) (he : env.IgnoresElapsed)
    {fuel k : ℕ} (hf : 2 * (P.maxIter + P.maxCycles) + 3 ≤ fuel)
    (hr : Reach P env o .idle s) (hs : serialStart P env s = .ok (s1, loc))
    (hr2 : Reach P env o (.running s.itercount k loc2) s2)
    (hpt : PassesTo P env s.itercount k s1 loc s2 loc2) (hi : s2.itercount ≠ 0)
    (hv : ∀ v ∈ s2.all.val,
      P.target + P.epsOpt * (if P.epsZero ≤ |P.target| then |P.target| else 1) < v) :
    SameOutcome (optimize P env fuel k s)
      (optimize P env fuel (s.itercount + k - s2.itercount) s2) := by
  have hit := hr2.iter
  have hge : s.itercount ≤ s2.itercount := hit.2.1
  have hle : s2.itercount ≤ s.itercount + k := hit.2.2.1
  have hd' : ∀ p, env.dist p p ≤ P.minDist := fun p => by rw [hd p]; exact hm
  -- gap at the state where the run is resumed
  obtain ⟨b, hb, hbv⟩ : ∃ b : ℚ, s2.fbest = b ∧ s2.all.val[s2.fbestIdx]? = some b := by
    rcases hr2.best hP hd' with hb | ⟨f, b, M, -, hb, -, -, hbl, -⟩
    · exact absurd hb.2.2.1 (running_fbest hP hd' hr2 (by simp))
    · exact ⟨b, hb, hbl.1⟩
  have hgap2 : ((P.epsOpt : ℚ) : EVal) < computeGap P s2.fbest := by
    rw [hb]
    simp only [computeGap, WithTop.map_coe]
    rw [WithTop.coe_lt_coe]
    unfold computeGapQ
    have hden : 0 < (if P.epsZero ≤ |P.target| then |P.target| else 1) := by
      split
      · rename_i h; exact lt_of_lt_of_le hz h
      · norm_num
    show P.epsOpt < (b - P.target) / (if P.epsZero ≤ |P.target| then |P.target| else 1)
    rw [lt_div_iff₀ hden]
    have := hv b (List.mem_of_getElem? hbv)
    linarith
  have hgapl : ((P.epsOpt : ℚ) : EVal) < loc2.gap := lt_of_lt_of_le hgap2 (hr2.gap hz hP)
  -- the resumed call
  have hrf : Reach P env o .idle s2 := hr2.load
  obtain ⟨g, hg⟩ : ∃ g, currentGap P s2 = .ok g := by
    have hlt := (List.getElem?_eq_some_iff.mp hbv).1
    obtain ⟨a1, a2, a3⟩ := hr2.wf.allA
    unfold currentGap
    rw [List.getElem?_eq_getElem (show s2.fbestIdx < s2.all.err.length by omega)]
    exact ⟨_, rfl⟩
  have hst : serialStart P env s2 = .ok (s2, { gap := g, err := none }) := by
    unfold serialStart firstRestart
    rw [if_neg hi]
    dsimp only
    rw [hg]
  have hr3 := hrf.call (s.itercount + k - s2.itercount) hst
  have hg3 : ((P.epsOpt : ℚ) : EVal) < g := by
    rw [currentGap_single (hr3.single hP) hr3.wf.allA hg]
    exact hgap2
  have hno := C11_terminates (pause := k) hr hf
  have hno' := C11_terminates (pause := s.itercount + k - s2.itercount) hrf hf
  obtain ⟨n, hn⟩ := hpt
  have hunint : loop P env s.itercount k fuel s1 loc = loop P env s.itercount k fuel s2 loc2 := by
    have h4 : loop P env s.itercount k fuel s1 loc ≠ .outOfFuel := by
      intro h5
      unfold optimize at hno
      rw [hs] at hno
      dsimp only at hno
      rw [h5] at hno
      exact hno rfl
    have h5 := loop_fuel fuel n h4
    rw [Nat.add_comm, hn fuel] at h5
    exact h5.symm
  have hrel : LoopRel s2.elapsed (loop P env s.itercount k fuel s2 loc2)
      (loop P env s2.itercount (s.itercount + k - s2.itercount) fuel s2 { gap := g, err := none }) := by
    have := loop_withE (s := s2) (e := s2.elapsed) (o := o) (fuel := fuel) (start := s.itercount)
      (k := s2.itercount - s.itercount) (k' := s.itercount + k - s2.itercount)
      (loc := loc2) (loc' := { gap := g, err := none }) he hc hP
      (by rw [show s.itercount + (s2.itercount - s.itercount) = s2.itercount by omega]; exact hr3)
      (Or.inr ⟨hgapl, hg3⟩)
    rw [show s.itercount + (s2.itercount - s.itercount) = s2.itercount by omega,
      show s2.itercount - s.itercount + (s.itercount + k - s2.itercount) = k by omega] at this
    exact this
  unfold optimize at hno hno' ⊢
  rw [hs] at hno ⊢
  rw [hst] at hno' ⊢
  dsimp only at hno hno' ⊢
  rw [hunint] at hno ⊢
  generalize loop P env s.itercount k fuel s2 loc2 = x at hrel hno
  generalize loop P env s2.itercount (s.itercount + k - s2.itercount) fuel s2
    { gap := g, err := none } = y at hrel hno'
  cases x with
  | outOfFuel => exact absurd rfl hno
  | raised a => cases y with
    | raised b => exact hrel
    | outOfFuel => exact hrel.elim
    | done b c => exact hrel.elim
  | done a la => cases y with
    | raised b => exact hrel.elim
    | outOfFuel => exact hrel.elim
    | done b c =>
      have hb : b = a.withE s2.elapsed := hrel
      subst hb
      rcases optimizeReturn_withE (s := a)
        (e := (a.withE s2.elapsed).elapsed + env.callTime (a.withE s2.elapsed))
        (e' := a.elapsed + env.callTime a) with h | h
      · exact absurd h hno'
      · exact h

/-! ## C14: saving and loading -/

/-- **C14** `load_from_file()` of a file written by `save_to_file()`, at any later time, in any
process (whatever its random generator and the other files), gives an object in exactly the saved
state, restores numpy's generator, and directs the log to `stdout`. -/
theorem C14_roundtrip (pk : Pickle (PyObj X R)) {canOpen : String → Bool} {p q : Proc X R}
    {path : String} (hsave : saveToFile pk canOpen p path = (q, none)) {fs : FS}
    (hfs : fs path = q.fs path) (rng : R) :
    ∃ l, loadFromFile pk fs rng path = .ok l ∧ l.alg = p.alg ∧ l.rng = p.rng ∧
      l.obj.attrs = p.obj.attrs ∧ l.obj.stream = some .stdout ∧ l.fs = fs := by
  obtain ⟨-, b, hb, rfl⟩ := saveToFile_ok hsave
  refine ⟨{ obj := { dumpedObj p with stream := some .stdout }, rng := p.rng, fs := fs },
    ?_, rfl, rfl, rfl, rfl, rfl⟩
  unfold loadFromFile
  rw [hfs]
  simp only [Function.update_self]
  rw [pk.roundtrip _ _ hb]
  rfl

/-- **C14** Hence every continuation is the same: any sequence of further calls on the loaded object
returns what it would have returned on the saved object. -/
theorem C14_continuation (pk : Pickle (PyObj X R)) {canOpen : String → Bool} {p q l : Proc X R}
    {path : String} (hsave : saveToFile pk canOpen p path = (q, none)) {fs : FS}
    (hfs : fs path = q.fs path) {rng : R} (hload : loadFromFile pk fs rng path = .ok l)
    (P : Params) (env : Env (X × R)) (fuel pause : ℕ) :
    optimize P env fuel pause l.alg = optimize P env fuel pause p.alg := by
  obtain ⟨l', h1, h2, -⟩ := C14_roundtrip pk hsave hfs rng
  rw [hload] at h1
  cases h1
  rw [h2]

/-- **C14** A successful save does not disturb the running object: its state, the generator and its
output stream are as before (only the attribute `random_state` has been set), and no other file is
touched. -/
theorem C14_running_object_unchanged (pk : Pickle (PyObj X R)) {canOpen : String → Bool}
    {p q : Proc X R} {path : String} (hsave : saveToFile pk canOpen p path = (q, none)) :
    q.alg = p.alg ∧ q.rng = p.rng ∧ q.obj.stream = p.obj.stream ∧
      ∀ f, f ≠ path → q.fs f = p.fs f := by
  obtain ⟨-, b, hb, rfl⟩ := saveToFile_ok hsave
  exact ⟨rfl, rfl, rfl, fun f hf => by simp [Function.update_of_ne hf]⟩

/-- **C14** (violated part) If the file cannot be opened or an attribute cannot be pickled, the
exception leaves the object without output stream: the next line of the log raises
`AttributeError`. -/
theorem C14_violated_failed_save (pk : Pickle (PyObj X R)) {canOpen : String → Bool}
    {p q : Proc X R} {path : String} {e : PyErr}
    (hsave : saveToFile pk canOpen p path = (q, some e)) :
    q.alg = p.alg ∧ q.obj.stream = none ∧ flushLog q = .error .attributeError := by
  have key : q.obj = dumpedObj p ∧ q.rng = p.rng := by
    unfold saveToFile at hsave
    dsimp only at hsave
    split at hsave
    · split at hsave
      · cases hsave; exact ⟨rfl, rfl⟩
      · cases hsave
    · cases hsave; exact ⟨rfl, rfl⟩
  obtain ⟨h1, h2⟩ := key
  have hs : q.obj.stream = none := by rw [h1]; rfl
  refine ⟨?_, hs, ?_⟩
  · unfold Proc.alg; rw [h1, h2]; rfl
  · unfold flushLog; rw [hs]

/-! ## C15: crashes -/

/-- **C15** What remains when the process dies during `save_to_file()`: every other file is intact,
and the file itself either is as it was, or contains an initial part of the new contents. -/
theorem C15_crash_states (pk : Pickle (PyObj X R)) {canOpen : String → Bool} {p : Proc X R}
    {path : String} {fs : FS} (h : CrashWhileSaving pk canOpen p path fs) :
    (∀ f, f ≠ path → fs f = p.fs f) ∧
    (fs path = p.fs path ∨ ∃ bs, bs <+: (pk.dump (dumpedObj p)).1 ∧ fs path = some bs) := by
  rcases crashWhileSaving_iff.mp h with rfl | ⟨-, bs, h1, rfl⟩
  · exact ⟨fun _ _ => rfl, Or.inl rfl⟩
  · exact ⟨fun f hf => by simp [Function.update_of_ne hf], Or.inr ⟨bs, h1, by simp⟩⟩

/-- **C15** (proved part) A crash never yields a wrong state: whatever can be loaded afterwards is
either the file as it was before, or exactly the state that was being saved. -/
theorem C15_no_corrupt_state (pk : Pickle (PyObj X R)) {canOpen : String → Bool}
    {p l : Proc X R} {path : String} {fs : FS} {rng : R}
    (h : CrashWhileSaving pk canOpen p path fs) (hl : loadFromFile pk fs rng path = .ok l) :
    fs path = p.fs path ∨ l.alg = p.alg := by
  rcases (C15_crash_states pk h).2 with h1 | ⟨bs, h1, h2⟩
  · exact Or.inl h1
  · right
    obtain ⟨b, obj, r, g1, g2, g3, rfl⟩ := loadFromFile_ok hl
    rw [h2] at g1
    cases g1
    cases hd : pk.dump (dumpedObj p) with
    | mk b e =>
      rw [hd] at h1
      cases e with
      | some e => rw [pk.failed _ _ _ hd _ h1] at g2; cases g2
      | none =>
        by_cases hb : bs = b
        · subst hb
          rw [pk.roundtrip _ _ hd] at g2
          cases g2
          cases g3
          rfl
        · rw [pk.truncated _ _ hd _ h1 hb] at g2; cases g2

/-- **C15** (violated part) Whatever the previous checkpoint, there is a moment during every save at
which a crash leaves no loadable state in the file: right after `open(filename, 'wb')`. -/
theorem C15_violated_checkpoint_lost (pk : Pickle (PyObj X R)) {canOpen : String → Bool}
    {p q : Proc X R} {path : String} (hsave : saveToFile pk canOpen p path = (q, none)) (rng : R) :
    ∃ fs, CrashWhileSaving pk canOpen p path fs ∧
      loadFromFile pk fs rng path = .error .pickleError := by
  obtain ⟨hc, b, hb, rfl⟩ := saveToFile_ok hsave
  refine ⟨Function.update p.fs path (some []),
    crashWhileSaving_iff.mpr (Or.inr ⟨hc, [], List.nil_prefix, rfl⟩), ?_⟩
  unfold loadFromFile
  simp only [Function.update_self]
  rw [pk.empty]

/-- **C15** (violated part) In fact none of the incomplete files can be loaded: the previous
checkpoint is lost from the first to the last byte written. -/
theorem C15_violated_no_partial_file_loads (pk : Pickle (PyObj X R)) {canOpen : String → Bool}
    {p q : Proc X R} {path : String} (hsave : saveToFile pk canOpen p path = (q, none)) (rng : R)
    {bs : Bytes} (hbs : bs <+: (q.fs path).getD []) (hne : some bs ≠ q.fs path) :
    CrashWhileSaving pk canOpen p path (Function.update p.fs path (some bs)) ∧
    loadFromFile pk (Function.update p.fs path (some bs)) rng path = .error .pickleError := by
  obtain ⟨hc, b, hb, rfl⟩ := saveToFile_ok hsave
  simp only [Function.update_self, Option.getD_some, ne_eq, Option.some.injEq] at hbs hne
  refine ⟨crashWhileSaving_iff.mpr (Or.inr ⟨hc, bs, by rw [hb]; exact hbs, rfl⟩), ?_⟩
  unfold loadFromFile
  simp only [Function.update_self]
  rw [pk.truncated _ _ hb _ hbs hne]

/-- **C15** A user who saves alternately to two files is safe: while one is being written, the other
one is still loadable. -/
theorem C15_two_files (pk : Pickle (PyObj X R)) {canOpen : String → Bool} {p q r : Proc X R}
    {path path' : String} (hpath : path ≠ path') (hsave : saveToFile pk canOpen p path = (q, none))
    (hr : r.fs path = q.fs path) {fs : FS} (h : CrashWhileSaving pk canOpen r path' fs) (rng : R) :
    ∃ l, loadFromFile pk fs rng path = .ok l ∧ l.alg = p.alg := by
  obtain ⟨l, h1, h2, -⟩ := C14_roundtrip pk hsave (fs := fs)
    (by rw [(C15_crash_states pk h).1 path hpath, hr]) rng
  exact ⟨l, h1, h2⟩

/-! ## Crash recovery from the automatic checkpoints -/

/-- What the state file contains when the process dies in the main loop. -/
theorem crashInLoop_file {pk : Pickle (PyObj X R)} {canOpen : String → Bool} {path : String}
    {env : Env (X × R)} {start pause : ℕ} {p : Proc X R} {loc : Loc} {fs : FS} {o : X × R}
    (h : CrashInLoop pk canOpen path P env start pause p loc fs)
    (hr : Reach P env o (.running start pause loc) p.alg) {rng : R} {l : Proc X R}
    (hl : loadFromFile pk fs rng path = .ok l) :
    fs path = p.fs path ∨ (l.alg.itercount ≠ 0 ∧
      l.alg.itercount % P.saveInterval = 0 ∧ ∃ loc',
      Reach P env o (.running start pause loc') l.alg ∧
      PassesTo P env start pause p.alg loc l.alg loc') := by
  have hdue : ∀ (p : Proc X R) (loc loc' : Loc) (s' : Alg (X × R)),
      WF env p.alg → pass P env p.alg loc = .ok (s', loc') → saveDue P p.alg s' = true →
      s'.itercount ≠ 0 ∧ s'.itercount % P.saveInterval = 0 := by
    intro p loc loc' s' hw hp hdue
    unfold saveDue at hdue
    simp only [ne_eq, Bool.and_eq_true, decide_eq_true_eq] at hdue
    refine ⟨?_, hdue.2⟩
    rcases pass_progress hw hp with h | h <;> omega
  induction h with
  | now p loc => exact Or.inl rfl
  | later hc hp _ _ ih =>
    rcases ih (hr.pass hc hp) hl with h | ⟨h0, h1, loc', h2, h3⟩
    · exact Or.inl h
    · exact Or.inr ⟨h0, h1, loc', h2, h3.step hc hp⟩
  | @saving p loc loc' s' fs hc hp hsd hcr =>
    rcases C15_no_corrupt_state pk hcr hl with h | h
    · exact Or.inl h
    · obtain ⟨d1, d2⟩ := hdue _ _ _ _ hr.wf hp hsd
      refine Or.inr ?_
      rw [h]
      exact ⟨d1, d2, loc', hr.pass hc hp, PassesTo.refl.step hc hp⟩
  | @saved p q loc loc' s' fs hc hp hsd hs _ ih =>
    obtain ⟨u1, u2, u3, u4⟩ := C14_running_object_unchanged pk hs
    have u1' : q.alg = s' := u1
    have hr' : Reach P env o (.running start pause loc') q.alg := by rw [u1']; exact hr.pass hc hp
    obtain ⟨d1, d2⟩ := hdue _ _ _ _ hr.wf hp hsd
    rcases ih hr' hl with h | ⟨h0, h1, loc'', h2, h3⟩
    · obtain ⟨l', g1, g2, -⟩ := C14_roundtrip pk hs h rng
      rw [hl] at g1
      cases g1
      have g2 : l.alg = s' := g2
      refine Or.inr ?_
      rw [g2]
      exact ⟨d1, d2, loc', hr.pass hc hp, PassesTo.refl.step hc hp⟩
    · rw [u1'] at h3
      exact Or.inr ⟨h0, h1, loc'', h2, h3.step hc hp⟩

/-- **C14** Crash recovery.  A process runs `optimize(k)` with automatic saving and is killed at an
arbitrary moment (between passes, or in the middle of a save).  If the state file can then be loaded
and is not the one from before the call, continuing from it for the remaining iterations gives exactly
the outcome of the uninterrupted run (same conditions as for C13: no noisy oracle, no clock limit, and
the checkpoint has not reached the target). -/
theorem C14_crash_recovery {pk : Pickle (PyObj X R)} {canOpen : String → Bool} {path : String}
    {env : Env (X × R)} {o : X × R} (hP : P.twoPhase = false) (hd : ∀ p, env.dist p p = 0)
    (hm : 0 ≤ P.minDist) (hz : 0 < P.epsZero) (hc : P.maxClock = ⊤) (he : env.IgnoresElapsed)
    {fuel k : ℕ} (hf : 2 * (P.maxIter + P.maxCycles) + 3 ≤ fuel) {p0 : Proc X R} {s1 : Alg (X × R)}
    {loc : Loc} (hr : Reach P env o .idle p0.alg) (hs : serialStart P env p0.alg = .ok (s1, loc))
    {fs : FS}
    (hcrash : CrashInLoop pk canOpen path P env p0.alg.itercount k (p0.setAlg s1) loc fs) {rng : R}
    {l : Proc X R} (hl : loadFromFile pk fs rng path = .ok l) (hnew : fs path ≠ p0.fs path)
    (hv : ∀ v ∈ l.alg.all.val,
      P.target + P.epsOpt * (if P.epsZero ≤ |P.target| then |P.target| else 1) < v) :
    SameOutcome (optimize P env fuel k p0.alg)
      (optimize P env fuel (p0.alg.itercount + k - l.alg.itercount) l.alg) := by
  rcases crashInLoop_file hcrash (hr.call k hs) hl with h | ⟨h0, -, loc', h2, h3⟩
  · exact absurd h hnew
  · exact resume_between_passes hP hd hm hz hc he hf hr hs h2 h3 h0 hv

end Rbfopt
