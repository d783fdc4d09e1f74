import Verif.Model.Cli
import Verif.Props.Problem

/-! # C66, C76: command line interface -/

namespace Rbfopt

/-! ## Reading the table -/

/-- The table of numbers as a file. -/
def toTokens (rows : List (List ℚ)) : List (List Token) := rows.map (fun r => r.map Token.num)

theorem readRow_num (r : List ℚ) : readRow (r.map Token.num) = .ok r := by
  induction r with
  | nil => rfl
  | cons x r ih => simp only [List.map_cons, readRow, ih]

theorem readRows_num (rows : List (List ℚ)) : readRows (toTokens rows) = .ok rows := by
  induction rows with
  | nil => rfl
  | cons r rs ih =>
    simp only [toTokens, List.map_cons, readRows, readRow_num]
    simp only [toTokens] at ih
    rw [ih]

theorem readRow_ok {ts : List Token} {r : List ℚ} (h : readRow ts = .ok r) :
    ts = r.map Token.num := by
  induction ts generalizing r with
  | nil => cases h; rfl
  | cons t ts ih =>
    cases t with
    | other => cases h
    | num x =>
      simp only [readRow] at h
      split at h
      · cases h
      · rename_i r' hr
        cases h
        rw [List.map_cons, ih hr]

theorem readRows_ok {file : List (List Token)} {rows : List (List ℚ)} (h : readRows file = .ok rows) :
    file = toTokens rows := by
  induction file generalizing rows with
  | nil => cases h; rfl
  | cons l ls ih =>
    simp only [readRows] at h
    split at h
    · cases h
    · rename_i r hr
      split at h
      · cases h
      · rename_i rs hrs
        cases h
        rw [readRow_ok hr, ih hrs]
        rfl

theorem npArray2_ok {rows : List (List ℚ)} {pos : List Pt} :
    npArray2 rows = .ok pos ↔ pos = rows ∧ ∀ p ∈ rows, ∀ q ∈ rows, p.length = q.length := by
  cases rows with
  | nil => simp [npArray2, eq_comm]
  | cons r rs =>
    simp only [npArray2]
    split
    · rename_i h
      simp only [Except.ok.injEq]
      refine ⟨fun e => ⟨e.symm, ?_⟩, fun e => e.1.symm⟩
      intro p hp q hq
      have key : ∀ p ∈ r :: rs, p.length = r.length := by
        intro p hp
        rcases List.mem_cons.mp hp with rfl | hp
        · rfl
        · exact h p hp
      rw [key p hp, key q hq]
    · rename_i h
      simp only [reduceCtorEq, false_iff, not_and]
      intro _ hc
      exact h fun q hq => hc q (List.mem_cons_of_mem _ hq) r List.mem_cons_self

/-- What the interface makes of a table of numbers. -/
theorem cliPoints_num (dim : ℕ) (rows : List (List ℚ)) (u : CliTable) :
    cliPoints dim (toTokens rows) = .ok u ↔ rows ≠ [] ∧
      (∀ p ∈ rows, ∀ q ∈ rows, p.length = q.length) ∧
      ((rows.headD []).length = dim + 1 ∧ u.pos = rows.map List.dropLast ∧
          u.val = some (rows.map (fun q => q.getLastD 0)) ∨
        (rows.headD []).length ≠ dim + 1 ∧ u.pos = rows ∧ u.val = none) := by
  obtain ⟨upos, uval⟩ := u
  cases rows with
  | nil => simp [cliPoints, readRows_num]
  | cons r rs =>
    simp only [cliPoints, readRows_num, List.headD_cons, ne_eq, reduceCtorEq, not_false_eq_true,
      true_and]
    by_cases hr : r.length = dim + 1
    · rw [if_pos hr]
      simp only [hr, true_and, not_true_eq_false, false_and, or_false]
      have hlen : ∀ p : List ℚ, p ≠ [] → p.dropLast.length + 1 = p.length := by
        intro p hp
        have := List.length_pos_of_ne_nil hp
        rw [List.length_dropLast]; omega
      by_cases he : ∃ q ∈ r :: rs, q = []
      · rw [if_pos he]
        simp only [reduceCtorEq, false_iff, not_and]
        intro hc
        obtain ⟨q, hq, rfl⟩ := he
        have := hc _ hq r List.mem_cons_self
        rw [hr] at this
        simp at this
      · rw [if_neg he]
        push Not at he
        have hiff : (∀ p ∈ r :: rs, ∀ q ∈ r :: rs, p.length = q.length) ↔
            ∀ p ∈ (r :: rs).map List.dropLast, ∀ q ∈ (r :: rs).map List.dropLast,
              p.length = q.length := by
          constructor
          · intro h p hp q hq
            obtain ⟨p', hp', rfl⟩ := List.mem_map.mp hp
            obtain ⟨q', hq', rfl⟩ := List.mem_map.mp hq
            rw [List.length_dropLast, List.length_dropLast, h p' hp' q' hq']
          · intro h p hp q hq
            have := h _ (List.mem_map.mpr ⟨p, hp, rfl⟩) _ (List.mem_map.mpr ⟨q, hq, rfl⟩)
            rw [← hlen p (he p hp), ← hlen q (he q hq), this]
        rw [hiff]
        split
        · rename_i e h1
          simp only [reduceCtorEq, false_iff, not_and]
          intro hc
          rw [npArray2_ok.mpr ⟨rfl, hc⟩] at h1
          cases h1
        · rename_i pos h1
          obtain ⟨rfl, h2⟩ := npArray2_ok.mp h1
          simp only [Except.ok.injEq, CliTable.mk.injEq]
          exact ⟨fun h => ⟨h2, h.1.symm, h.2.symm⟩, fun h => ⟨h.2.1.symm, h.2.2.symm⟩⟩
    · rw [if_neg hr]
      simp only [hr, false_and, not_false_eq_true, true_and, false_or]
      split
      · rename_i e h1
        simp only [reduceCtorEq, false_iff, not_and]
        intro hc
        rw [npArray2_ok.mpr ⟨rfl, hc⟩] at h1
        cases h1
      · rename_i pos h1
        obtain ⟨rfl, h2⟩ := npArray2_ok.mp h1
        simp only [Except.ok.injEq, CliTable.mk.injEq]
        exact ⟨fun h => ⟨h2, h.1.symm, h.2.symm⟩, fun h => ⟨h.2.1.symm, h.2.2.symm⟩⟩

/-- The number of columns that the constructor accepts is the number of variables not fixed. -/
theorem ctor_width {eps : ℚ} {vars : List Var} (hw : WellFormed vars) :
    (construct eps vars).categorical.length + (construct eps vars).notCategorical.length =
      (vars.filter (fun v => !v.isFixed eps)).length := by
  rw [construct_eq hw]
  show (catIdx (simpVars eps vars)).length + (notCatIdx (simpVars eps vars)).length = _
  rw [length_cat_add, simpVars, List.length_map, unfixedSpec]

theorem filter_length_lt {eps : ℚ} {vars : List Var} (h : ∃ v ∈ vars, v.isFixed eps = true) :
    (vars.filter (fun v => !v.isFixed eps)).length < vars.length := by
  obtain ⟨v, hv, hf⟩ := h
  refine lt_of_le_of_ne (List.length_filter_le _ _) fun he => ?_
  have := List.length_filter_eq_length_iff.mp he v hv
  simp [hf] at this

/-- What the constructor receives from a points file, and what it stores: `none` if an exception is
raised on the way. -/
def cliStored (eps : ℚ) (vars : List Var) (file : List (List Token)) : Option (List Pt × List ℚ) :=
  match cliPoints vars.length file with
  | .error _ => none
  | .ok u => (ctorPoints eps vars u).toOption

theorem ctorPoints_ok {eps : ℚ} {vars : List Var} (hw : WellFormed vars) {u : CliTable}
    {r : List Pt × List ℚ} : ctorPoints eps vars u = .ok r ↔
      (∀ vs, u.val = some vs → u.pos.length = vs.length) ∧
      (∀ p ∈ u.pos, p.length = (vars.filter (fun v => !v.isFixed eps)).length) ∧
      r = (u.pos.map (fun p => roundInts (construct eps vars).intVars
        (expandPt (construct eps vars) p)), u.val.getD []) := by
  obtain ⟨pos, val⟩ := u
  simp only [ctorPoints, ctor_width hw]
  cases val with
  | none =>
    simp only [Option.isSome_none, Bool.false_eq_true, false_and, if_false, reduceCtorEq,
      false_implies, implies_true, true_and]
    split
    · rename_i h; simp only [Except.ok.injEq]; exact ⟨fun e => ⟨h, e.symm⟩, fun e => e.2.symm⟩
    · rename_i h; simp only [reduceCtorEq, false_iff, not_and]; exact fun hc => absurd hc h
  | some vs =>
    simp only [Option.isSome_some, true_and, Option.getD_some, Option.some.injEq, forall_eq']
    split
    · rename_i h; simp only [reduceCtorEq, false_iff, not_and]; exact fun hc => absurd hc h
    · rename_i h0
      have h0 := not_not.mp h0
      split
      · rename_i h; simp only [Except.ok.injEq]
        exact ⟨fun e => ⟨h0, h, e.symm⟩, fun e => e.2.2.symm⟩
      · rename_i h; simp only [reduceCtorEq, false_iff, not_and]; exact fun _ hc => absurd hc h

/-- **C66** Points file, no fixed variables: the run starts if and only if the file is a non-empty
table of numbers all of whose rows have either as many entries as there are variables, and then no
values are stored, or one entry more, and then the last entries are stored as the values, in the order
of the rows; the points are stored in the order of the rows, encoded as the internal points.  All other
files raise an exception. -/
theorem C66_points_file {eps : ℚ} {vars : List Var} (hw : WellFormed vars)
    (hfix : ∀ v ∈ vars, v.isFixed eps = false) (file : List (List Token)) (pos : List Pt)
    (val : List ℚ) :
    cliStored eps vars file = some (pos, val) ↔
      ∃ rows : List (List ℚ), rows ≠ [] ∧ file = toTokens rows ∧
        ((∀ r ∈ rows, r.length = vars.length) ∧ val = [] ∧
            pos = rows.map (fun r => roundInts (construct eps vars).intVars
              (expandPt (construct eps vars) r)) ∨
         (∀ r ∈ rows, r.length = vars.length + 1) ∧ val = rows.map (fun r => r.getLastD 0) ∧
            pos = rows.map (fun r => roundInts (construct eps vars).intVars
              (expandPt (construct eps vars) (r.take vars.length)))) := by
  have hflt : (vars.filter (fun v => !v.isFixed eps)).length = vars.length := by
    rw [List.length_filter_eq_length_iff]
    intro v hv
    simp [hfix v hv]
  constructor
  · intro h
    unfold cliStored at h
    split at h
    · cases h
    · rename_i u hu
      have hr : ∃ rows, readRows file = .ok rows := by
        unfold cliPoints at hu
        split at hu
        · cases hu
        · cases hu
        · rename_i r rs hr; exact ⟨_, hr⟩
      obtain ⟨rows, hr⟩ := hr
      rw [readRows_ok hr] at hu
      have hc : ctorPoints eps vars u = .ok (pos, val) := by
        cases hx : ctorPoints eps vars u with
        | error e => rw [hx] at h; cases h
        | ok r => rw [hx] at h; cases h; rfl
      obtain ⟨hne, hrect, hcase⟩ := (cliPoints_num vars.length rows u).mp hu
      obtain ⟨-, hwid, hres⟩ := (ctorPoints_ok hw).mp hc
      rw [hflt] at hwid
      simp only [Prod.mk.injEq] at hres
      refine ⟨rows, hne, readRows_ok hr, ?_⟩
      have hhead : rows.headD [] ∈ rows := by
        cases rows with
        | nil => exact absurd rfl hne
        | cons a l => exact List.mem_cons_self
      rcases hcase with ⟨h1, h2, h3⟩ | ⟨h1, h2, h3⟩
      · right
        have hlen : ∀ r ∈ rows, r.length = vars.length + 1 := fun r hr => by
          rw [hrect r hr _ hhead, h1]
        refine ⟨hlen, by rw [hres.2, h3]; rfl, ?_⟩
        rw [hres.1, h2, List.map_map]
        refine List.map_congr_left fun r hr => ?_
        simp only [Function.comp_apply, List.dropLast_eq_take, hlen r hr, Nat.add_sub_cancel]
      · left
        refine ⟨fun r hr => ?_, by rw [hres.2, h3]; rfl, by rw [hres.1, h2]⟩
        exact hwid r (by rw [h2]; exact hr)
  · rintro ⟨rows, hne, rfl, h⟩
    have hrect : ∀ m, (∀ r ∈ rows, r.length = m) → ∀ p ∈ rows, ∀ q ∈ rows, p.length = q.length :=
      fun m hm p hp q hq => by rw [hm p hp, hm q hq]
    have hhead : rows.headD [] ∈ rows := by
      cases rows with
      | nil => exact absurd rfl hne
      | cons a l => exact List.mem_cons_self
    rcases h with ⟨hlen, rfl, rfl⟩ | ⟨hlen, rfl, rfl⟩
    · have hu := (cliPoints_num vars.length rows ⟨rows, none⟩).mpr ⟨hne, hrect _ hlen,
        .inr ⟨by rw [hlen _ hhead]; omega, rfl, rfl⟩⟩
      unfold cliStored
      rw [hu]
      dsimp only
      rw [(ctorPoints_ok hw (r := _)).mpr ⟨by simp, by rw [hflt]; exact hlen, rfl⟩]
      rfl
    · have hu := (cliPoints_num vars.length rows ⟨rows.map List.dropLast,
        some (rows.map (fun q => q.getLastD 0))⟩).mpr ⟨hne, hrect _ hlen,
        .inl ⟨hlen _ hhead, rfl, rfl⟩⟩
      unfold cliStored
      rw [hu]
      dsimp only
      rw [(ctorPoints_ok hw (r := _)).mpr ⟨by simp, ?_, rfl⟩]
      · simp only [Except.toOption, Option.getD_some, Option.some.injEq, Prod.mk.injEq, and_true,
          List.map_map]
        refine List.map_congr_left fun r hr => ?_
        simp only [Function.comp_apply, List.dropLast_eq_take, hlen r hr, Nat.add_sub_cancel]
      · rw [hflt]
        intro p hp
        obtain ⟨r, hr, rfl⟩ := List.mem_map.mp hp
        rw [List.length_dropLast, hlen r hr, Nat.add_sub_cancel]

/-- **C66, violated with fixed variables** If some variable is fixed, no values can be given: a file
is accepted only if its rows have exactly one entry per variable that is not fixed, and the stored
values are always empty; rows with one entry per variable of the black box are refused. -/
theorem C66_violated_fixed_variables {eps : ℚ} {vars : List Var} (hw : WellFormed vars)
    (hfix : ∃ v ∈ vars, v.isFixed eps = true) {file : List (List Token)} {pos : List Pt}
    {val : List ℚ} (h : cliStored eps vars file = some (pos, val)) :
    val = [] ∧ ∃ rows : List (List ℚ), file = toTokens rows ∧
      ∀ r ∈ rows, r.length = (vars.filter (fun v => !v.isFixed eps)).length ∧
        r.length < vars.length := by
  have hlt := filter_length_lt hfix
  unfold cliStored at h
  split at h
  · cases h
  · rename_i u hu
    have hr : ∃ rows, readRows file = .ok rows := by
      unfold cliPoints at hu
      split at hu
      · cases hu
      · cases hu
      · rename_i r rs hr; exact ⟨_, hr⟩
    obtain ⟨rows, hr⟩ := hr
    rw [readRows_ok hr] at hu
    have hc : ctorPoints eps vars u = .ok (pos, val) := by
      cases hx : ctorPoints eps vars u with
      | error e => rw [hx] at h; cases h
      | ok r => rw [hx] at h; cases h; rfl
    obtain ⟨hne, hrect, hcase⟩ := (cliPoints_num vars.length rows u).mp hu
    obtain ⟨-, hwid, hres⟩ := (ctorPoints_ok hw).mp hc
    simp only [Prod.mk.injEq] at hres
    have hhead : rows.headD [] ∈ rows := by
      cases rows with
      | nil => exact absurd rfl hne
      | cons a l => exact List.mem_cons_self
    rcases hcase with ⟨h1, h2, h3⟩ | ⟨h1, h2, h3⟩
    · exfalso
      have := hwid (rows.headD []).dropLast (by rw [h2]; exact List.mem_map.mpr ⟨_, hhead, rfl⟩)
      rw [List.length_dropLast, h1] at this
      omega
    · refine ⟨by rw [hres.2, h3]; rfl, rows, readRows_ok hr, fun r hr' => ?_⟩
      have := hwid r (by rw [h2]; exact hr')
      omega

/-! ## The interface as a whole -/

variable {S A R : Type}

/-- **C66** With a saved state, the points file is ignored, and the settings of the command line are
only required to be valid: the outcome is the same for all valid settings and all points files. -/
theorem C66_load_ignores_options {env env' : CliEnv S A R} {args args' : CliArgs} {s s' : S}
    (hl : args.load = true) (ha : args' = { args with points := args'.points })
    (he : env' = { env with settings := .ok s' }) (hs : env.settings = .ok s) (o : Bool) :
    cliInterface env' args' o = cliInterface env args o := by
  subst he
  rw [ha]
  simp only [cliInterface, hs, cliAlg, hl, if_true, cliPointsFail, Bool.not_true, Bool.false_and]

/-- **C66** The state is saved, after the optimization, if and only if this was asked for, and the
saved object is the one left by `optimize()`. -/
theorem C66_dump {env : CliEnv S A R} {args : CliArgs} {o o' : Bool} {r : R} {saved : Option A}
    (h : cliInterface env args o = (.ok (r, saved), o')) :
    ∃ a a', env.run a = .ok (r, a') ∧ (saved = some a' ∧ args.dump = true ∨
      saved = none ∧ args.dump = false) := by
  unfold cliInterface at h
  dsimp only at h
  split at h
  · cases h
  · split at h
    · cases h
    · split at h
      · cases h
      · split at h
        · cases h
        · rename_i a ha
          split at h
          · cases h
          · rename_i r' a' hr
            refine ⟨a, a', ?_⟩
            cases hd : args.dump
            · rw [hd] at h; cases h; exact ⟨hr, .inr ⟨rfl, rfl⟩⟩
            · rw [hd] at h; cases h; exact ⟨hr, .inl ⟨rfl, rfl⟩⟩

/-- **C76, violated** Without a log file, a successful call closes the standard output of the calling
program. -/
theorem C76_violated_stdout_closed {env : CliEnv S A R} {args : CliArgs} {o o' : Bool}
    {r : R × Option A} (hlog : args.log = none) (h : cliInterface env args o = (.ok r, o')) :
    o' = false := by
  unfold cliInterface at h
  dsimp only at h
  rw [hlog] at h
  split at h
  · cases h
  · simp only [reduceCtorEq, if_false, Option.isNone_none, Bool.true_and] at h
    split at h
    · cases h
    · split at h
      · cases h
      · split at h
        · cases h
        · simp only [Prod.mk.injEq] at h
          rw [← h.2]; simp

/-- **C76, violated** Hence every later call without a log file fails before the optimization starts,
whatever the black box and the options. -/
theorem C76_violated_second_call {S' A' R' : Type} {env : CliEnv S A R} {args : CliArgs}
    {o o' : Bool} {r : R × Option A} (hlog : args.log = none)
    (h : cliInterface env args o = (.ok r, o')) (env2 : CliEnv S' A' R') {s : S'}
    (hs : env2.settings = .ok s) (args2 : CliArgs) (hlog2 : args2.log = none) :
    cliInterface env2 args2 o' = (.error .valueError, o') := by
  rw [C76_violated_stdout_closed hlog h]
  simp [cliInterface, hs, hlog2]

/-- **C76** With a log file the standard output stays as it was, whatever happens. -/
theorem C76_log_file {env : CliEnv S A R} {args : CliArgs} (o : Bool) (hlog : args.log ≠ none) :
    (cliInterface env args o).2 = o := by
  have hn : args.log.isNone = false := by
    cases h : args.log with
    | none => exact absurd h hlog
    | some b => rfl
  unfold cliInterface
  dsimp only
  rw [hn]
  split
  · rfl
  · split
    · rfl
    · split
      · rfl
      · split
        · simp
        · split <;> simp

/-- **C76, violated** If the log file cannot be opened, the interface does not fall back to the
standard output nor report the error to its caller, but fails with a NameError. -/
theorem C76_violated_log_file {env : CliEnv S A R} {args : CliArgs} {s : S} (o : Bool)
    (hs : env.settings = .ok s) (hlog : args.log = some false) :
    cliInterface env args o = (.error .nameError, o) := by
  simp [cliInterface, hs, hlog]

/-! ## Concrete cases -/

/-- A table of three points in dimension 2, with values. -/
example : cliPoints 2 (toTokens [[1, 2, 10], [3, 4, 20], [5, 6, 30]]) =
    .ok ⟨[[1, 2], [3, 4], [5, 6]], some [10, 20, 30]⟩ := by decide +kernel

/-- A blank line at the end of the file makes it invalid. -/
theorem C66_blank_line : cliPoints 2 (toTokens [[1, 2], [3, 4], []]) = .error .valueError ∧
    cliPoints 2 (toTokens [[1, 2, 10], []]) = .error .indexError := by
  constructor <;> decide +kernel

/-- The hypotheses about the calls are met: a program whose two calls do what `C76` says. -/
example : cliInterface (S := Unit) (A := ℕ) (R := ℕ)
    ⟨.ok (), .ok 0, fun _ _ => .ok 1, fun a => .ok (a + 1, a + 2), 2⟩ ⟨none, false, none, true⟩ true =
    (.ok (2, some 3), false) := rfl

end Rbfopt
