import Verif.Model.CliOptions
import Verif.Props.Settings
import Mathlib.Data.List.Nodup

/-!
# Command line options determine the settings (C94)
-/

namespace Rbfopt

/-! ## The table of options -/

theorem docstring_names_documented :
    docstringOptions.map Prod.fst = documentedParams.map Prod.fst := by decide +kernel

theorem settingsKeys_eq : settingsKeys = docstringOptions.map Prod.fst := by decide +kernel

theorem cliOptions_flags_nodup : (cliOptions.map CliOption.flag).Nodup := by decide +kernel

theorem cliOptions_dests_nodup : (cliOptions.map CliOption.dest).Nodup := by decide +kernel

theorem settingsDefaults_nodup : (settingsDefaults.map Prod.fst).Nodup := by decide +kernel

/-- **C94** Every parameter of `RbfoptSettings` is an option of the command line, and every option that is
not one of the interface is a parameter; the declared type is the type of the default value. -/
theorem C94_every_parameter_is_an_option :
    (∀ name, (settingsDefaults.lookup name).isSome = true ↔
      ∃ ty, (⟨name, name, ty⟩ : CliOption) ∈ cliOptions ∧ (⟨name, name, ty⟩ : CliOption) ∉ execOptions) ∧
    ∀ e ∈ docstringOptions, ∃ v, settingsDefaults.lookup e.1 = some v ∧
      match e.2, v with
      | .float, .num _ => True
      | .int, .num q => q.den = 1
      | .bool, .bool _ => True
      | .str, .str _ => True
      | _, _ => False := by
  constructor
  · intro name
    rw [known_iff]
    constructor
    · rintro ⟨k, hk⟩
      have : name ∈ docstringOptions.map Prod.fst := by
        rw [docstring_names_documented]; exact List.mem_map.mpr ⟨_, hk, rfl⟩
      obtain ⟨⟨n, ty⟩, he, rfl⟩ := List.mem_map.mp this
      refine ⟨ty, List.mem_append_left _ (List.mem_map.mpr ⟨_, he, rfl⟩), ?_⟩
      have hx : ∀ e ∈ docstringOptions, ∀ o ∈ execOptions, o.flag ≠ e.1 := by decide +kernel
      exact fun h => hx _ he _ h rfl
    · rintro ⟨ty, h1, h2⟩
      rcases List.mem_append.mp h1 with h | h
      · obtain ⟨e, he, e1⟩ := List.mem_map.mp h
        have hn : e.1 = name := congrArg CliOption.flag e1
        have : e.1 ∈ documentedParams.map Prod.fst := by
          rw [← docstring_names_documented]; exact List.mem_map.mpr ⟨_, he, rfl⟩
        obtain ⟨e', he', e2⟩ := List.mem_map.mp this
        exact ⟨e'.2, by rw [← hn, ← e2]; exact he'⟩
      · exact absurd h h2
  · have : ∀ e ∈ docstringOptions, (match settingsDefaults.lookup e.1 with
        | none => false
        | some v => match e.2, v with
          | .float, .num _ => true
          | .int, .num q => decide (q.den = 1)
          | .bool, .bool _ => true
          | .str, .str _ => true
          | _, _ => false) = true := by decide +kernel
    intro e he
    have h := this e he
    split at h
    · cases h
    · rename_i v hv
      refine ⟨v, hv, ?_⟩
      split at h <;> simp_all

/-! ## Resolution of options -/

theorem resolveOption_registered {o : CliOption} (h : o ∈ cliOptions) : resolveOption o.flag = some o := by
  unfold resolveOption
  have hf : ∃ o', cliOptions.find? (fun o' => o'.flag == o.flag) = some o' := by
    rw [← Option.isSome_iff_exists, List.find?_isSome]
    exact ⟨o, h, by simp⟩
  obtain ⟨o', ho'⟩ := hf
  rw [ho']
  have hm := List.mem_of_find?_eq_some ho'
  have he := List.find?_some ho'
  rw [beq_iff_eq] at he
  exact congrArg some (List.inj_on_of_nodup_map cliOptions_flags_nodup hm h he)

theorem resolveOption_mem {f : String} {o : CliOption} (h : resolveOption f = some o) :
    o ∈ cliOptions ∧ f.toList <+: o.flag.toList := by
  unfold resolveOption at h
  split at h
  · rename_i o' ho'
    cases h
    have he := List.find?_some ho'
    rw [beq_iff_eq] at he
    exact ⟨List.mem_of_find?_eq_some ho', by rw [he]; exact List.prefix_rfl⟩
  · split at h
    · rename_i o' ho'
      cases h
      have : o ∈ cliOptions.filter (fun o => f.toList.isPrefixOf o.flag.toList) := by rw [ho']; simp
      rw [List.mem_filter] at this
      exact ⟨this.1, List.isPrefixOf_iff_prefix.mp this.2⟩
    · cases h

/-- **C94** The arguments of which options are numbers with a fraction, which are integers; the others are
yes/no options and words. -/
theorem C94_option_types (name : String) :
    ((name, ArgType.float) ∈ docstringOptions ↔ name ∈
      ["max_clock_time", "parallel_wakeup_time", "rbf_shape_parameter", "target_objval", "eps_opt",
     "eps_zero", "eps_impr", "eps_linear_dependence", "min_dist", "init_sample_fraction",
     "init_sample_increase_parallel", "log_scaling_threshold", "dynamism_threshold",
     "local_search_threshold", "local_search_box_scaling", "max_fraction_discarded",
     "thresh_unlimited_refinement", "thresh_unlimited_refinement_stalled",
     "ref_acceptable_decrease_shrink", "ref_acceptable_decrease_enlarge", "ref_acceptable_decrease_move",
     "ref_min_radius", "ref_init_radius_multiplier", "ref_min_grad_norm"]) ∧
    ((name, ArgType.int) ∈ docstringOptions ↔ name ∈
      ["max_iterations", "max_evaluations", "max_noisy_evaluations", "max_cycles", "num_cpus",
     "num_global_searches", "max_random_init", "max_stalled_iterations", "discarded_window_size",
     "max_consecutive_restoration", "max_cross_validations", "max_noisy_restarts", "max_noisy_iterations",
     "ga_base_population_size", "ga_num_generations", "num_samples_aux_problems",
     "max_consecutive_refinement", "refinement_frequency", "ref_num_integer_candidates",
     "save_state_interval", "rand_seed"]) ∧
    ((name, ArgType.bool) ∈ docstringOptions ↔ name ∈
      ["do_infstep", "do_local_search", "init_include_midpoint", "targetval_clipping",
     "modified_msrsm_score", "print_solver_output", "debug"]) := by
  have key : ∀ (ty : ArgType) (l : List String), (∀ e ∈ docstringOptions, e.2 = ty → e.1 ∈ l) → (∀ n ∈ l, (n, ty) ∈ docstringOptions) →
      ((name, ty) ∈ docstringOptions ↔ name ∈ l) :=
    fun ty l h1 h2 => ⟨fun h => h1 _ h rfl, fun h => h2 _ h⟩
  refine ⟨key _ _ ?_ ?_, key _ _ ?_ ?_, key _ _ ?_ ?_⟩ <;> decide +kernel

/-- **C94** A registered option means itself, even if its name is the beginning of others (`rbf`,
`thresh_unlimited_refinement`, `log`); anything else is accepted only if it is the beginning of exactly one
registered option, which it then means. -/
theorem C94_option_names (f : String) :
    (∀ o ∈ cliOptions, o.flag = f → resolveOption f = some o) ∧
    ((∀ o ∈ cliOptions, o.flag ≠ f) → ∀ o, (resolveOption f = some o ↔
      (o ∈ cliOptions ∧ f.toList <+: o.flag.toList ∧
        ∀ o' ∈ cliOptions, f.toList <+: o'.flag.toList → o' = o))) := by
  refine ⟨fun o ho e => e ▸ resolveOption_registered ho, fun hne o => ?_⟩
  have hnone : cliOptions.find? (fun o => o.flag == f) = none := by
    rw [List.find?_eq_none]
    intro o ho
    simpa using hne o ho
  have hnd : (cliOptions.filter (fun o => f.toList.isPrefixOf o.flag.toList)).Nodup :=
    (List.Nodup.of_map _ cliOptions_flags_nodup).filter _
  have hmem : ∀ o, o ∈ cliOptions.filter (fun o => f.toList.isPrefixOf o.flag.toList) ↔
      o ∈ cliOptions ∧ f.toList <+: o.flag.toList := by
    intro o
    rw [List.mem_filter, List.isPrefixOf_iff_prefix]
  unfold resolveOption
  rw [hnone]
  dsimp only
  generalize cliOptions.filter (fun o => f.toList.isPrefixOf o.flag.toList) = l at hnd hmem
  match l, hnd, hmem with
  | [], _, hmem =>
    simp only [reduceCtorEq, false_iff]
    rintro ⟨h1, h2, -⟩
    exact absurd ((hmem o).mpr ⟨h1, h2⟩) (by simp)
  | [a], _, hmem =>
    simp only [Option.some.injEq]
    constructor
    · rintro rfl
      have := (hmem a).mp (by simp)
      exact ⟨this.1, this.2, fun o' h1 h2 => by simpa using (hmem o').mpr ⟨h1, h2⟩⟩
    · rintro ⟨h1, h2, -⟩
      have := (hmem o).mpr ⟨h1, h2⟩
      simpa [eq_comm] using this
  | a :: b :: l, hnd, hmem =>
    simp only [reduceCtorEq, false_iff]
    rintro ⟨-, -, h3⟩
    have ha := (hmem a).mp (by simp)
    have hb := (hmem b).mp (by simp)
    have e := (h3 a ha.1 ha.2).trans (h3 b hb.1 hb.2).symm
    subst e
    simp at hnd

/-! ## From the options to the settings -/

/-- The value that the command line gives to the destination `dest`: the argument of the last option stored
there, converted. -/
inductive CommandLineValue (c : ArgConv) (given : List (String × String)) (dest : String) : SVal → Prop
  | given {i : ℕ} {f w : String} {o : CliOption} {v : SVal} : given[i]? = some (f, w) →
      resolveOption f = some o → o.dest = dest → c.apply o.ty w = .ok v →
      (∀ (j : ℕ) (g : String × String) (o' : CliOption), i < j → given[j]? = some g →
        resolveOption g.1 = some o' → o'.dest ≠ dest) →
      CommandLineValue c given dest v
  | default {v : SVal} : (∀ g ∈ given, ∀ o, resolveOption g.1 = some o → o.dest ≠ dest) →
      settingsDefaults.lookup dest = some v → CommandLineValue c given dest v

/-- The dictionary after parsing. -/
theorem parseOptions_spec {c : ArgConv} {given : List (String × String)} {d d' : CliDict}
    (h : parseOptions c given d = .ok d') :
    (∀ g ∈ given, ∃ o v, resolveOption g.1 = some o ∧ c.apply o.ty g.2 = .ok v) ∧
    ∀ dest, (∃ i f w o v, given[i]? = some (f, w) ∧ resolveOption f = some o ∧ o.dest = dest ∧
        c.apply o.ty w = .ok v ∧ (∀ (j : ℕ) (g : String × String) (o' : CliOption), i < j →
          given[j]? = some g → resolveOption g.1 = some o' → o'.dest ≠ dest) ∧ d' dest = some v) ∨
      ((∀ g ∈ given, ∀ o, resolveOption g.1 = some o → o.dest ≠ dest) ∧ d' dest = d dest) := by
  induction given generalizing d with
  | nil =>
    cases h
    exact ⟨by simp, fun dest => .inr ⟨by simp, rfl⟩⟩
  | cons g rest ih =>
    obtain ⟨f, w⟩ := g
    rw [parseOptions] at h
    split at h
    · cases h
    · rename_i o ho
      split at h
      · cases h
      · cases h
      · rename_i v hv
        obtain ⟨h1, h2⟩ := ih h
        refine ⟨?_, fun dest => ?_⟩
        · intro g hg
          rcases List.mem_cons.mp hg with rfl | hg
          · exact ⟨o, v, ho, hv⟩
          · exact h1 g hg
        · rcases h2 dest with ⟨i, f', w', o', v', e1, e2, e3, e4, e5, e6⟩ | ⟨e1, e2⟩
          · refine .inl ⟨i + 1, f', w', o', v', by simpa using e1, e2, e3, e4, ?_, e6⟩
            intro j g oo hj hg
            obtain ⟨j, rfl⟩ : ∃ j', j = j' + 1 := ⟨j - 1, by omega⟩
            exact e5 j g oo (by omega) (by simpa using hg)
          · by_cases hd : o.dest = dest
            · refine .inl ⟨0, f, w, o, v, rfl, ho, hd, hv, ?_, ?_⟩
              · intro j g oo hj hg
                obtain ⟨j, rfl⟩ : ∃ j', j = j' + 1 := ⟨j - 1, by omega⟩
                rw [List.getElem?_cons_succ] at hg
                exact e1 g (List.mem_of_getElem? hg) oo
              · rw [e2, ← hd, Function.update_self]
            · refine .inr ⟨?_, ?_⟩
              · intro g hg oo hoo
                rcases List.mem_cons.mp hg with rfl | hg
                · rw [ho] at hoo; cases hoo; exact hd
                · exact e1 g hg oo hoo
              · rw [e2, Function.update_of_ne (Ne.symm hd)]

theorem lookup_filterMap {keys : List String} {d : CliDict} {k : String} :
    (keys.filterMap (fun k => (d k).map (fun v => (k, v)))).lookup k = if k ∈ keys then d k else none := by
  induction keys with
  | nil => simp
  | cons a keys ih =>
    cases ha : d a with
    | none =>
      rw [List.filterMap_cons_none (by simp [ha]), ih]
      by_cases hk : k = a
      · subst hk; simp [ha]
      · simp [hk]
    | some v =>
      rw [List.filterMap_cons_some (b := (a, v)) (by simp [ha]), List.lookup_cons]
      by_cases hk : k = a
      · subst hk; simp [ha]
      · have : (k == a) = false := by simpa using hk
        rw [this, ih]
        simp [hk]

theorem cliDefault_settings {name : String} (h : name ∈ settingsKeys) :
    cliDefault name = settingsDefaults.lookup name := by
  have : ∀ k ∈ settingsKeys, cliDefault k = settingsDefaults.lookup k := by decide +kernel
  exact this name h

theorem settingsKeys_iff (name : String) :
    name ∈ settingsKeys ↔ (settingsDefaults.lookup name).isSome = true := by
  rw [settingsKeys_eq, docstring_names_documented, known_iff, List.mem_map]
  constructor
  · rintro ⟨e, he, rfl⟩; exact ⟨e.2, he⟩
  · rintro ⟨k, hk⟩; exact ⟨_, hk, rfl⟩

/-- **C94** The settings used for the optimization are exactly those of the command line: every parameter has
the value given by the last option for it, and its default value if there is none; options of the interface
itself do not matter. -/
theorem C94_settings_are_those_given {c : ArgConv} {given : List (String × String)} {s : Settings}
    (h : cliSettings c given = .ok s) {name : String} {v0 : SVal}
    (hn : settingsDefaults.lookup name = some v0) : CommandLineValue c given name (s name) := by
  unfold cliSettings at h
  split at h
  · cases h
  · rename_i d hd
    split at h
    · cases h
    · rename_i s' hs
      cases h
      have hk : name ∈ settingsKeys := (settingsKeys_iff name).mpr (by rw [hn]; rfl)
      obtain ⟨k, hdoc⟩ := (known_iff name).mp (by rw [hn]; rfl)
      have hv := (C57_validation _).2.1 _ hs _ hdoc
      simp only [SettingsValue, lookup_filterMap, if_pos hk] at hv
      obtain ⟨-, h2⟩ := parseOptions_spec hd
      rcases h2 name with ⟨i, f, w, o, v, e1, e2, e3, e4, e5, e6⟩ | ⟨e1, e2⟩
      · rw [e6] at hv
        rcases hv with hv | ⟨hv, -⟩
        · cases hv
          exact .given e1 e2 e3 e4 e5
        · cases hv
      · rw [e2, cliDefault_settings hk] at hv
        rcases hv with hv | ⟨hv, -⟩
        · exact .default e1 hv
        · rw [hn] at hv; cases hv

/-- **C94** The command line is accepted if and only if every option is known (or an unambiguous
abbreviation), every argument converts, and the resulting values are within their documented ranges. -/
theorem C94_accepted_iff (c : ArgConv) (given : List (String × String)) :
    (∃ s, cliSettings c given = .ok s) ↔
      (∀ g ∈ given, ∃ o v, resolveOption g.1 = some o ∧ c.apply o.ty g.2 = .ok v) ∧
      ∀ e ∈ documentedParams, ∀ v, CommandLineValue c given e.1 v → e.2.Allows v := by
  -- parsing succeeds iff all options resolve and convert
  have hparse : ∀ (gv : List (String × String)) (d : CliDict),
      (∀ g ∈ gv, ∃ o v, resolveOption g.1 = some o ∧ c.apply o.ty g.2 = .ok v) →
      ∃ d', parseOptions c gv d = .ok d' := by
    intro gv
    induction gv with
    | nil => intro d _; exact ⟨d, rfl⟩
    | cons g rest ih =>
      intro d hall
      obtain ⟨f, w⟩ := g
      obtain ⟨o, v, ho, hv⟩ := hall (f, w) (by simp)
      obtain ⟨d', hd'⟩ := ih (Function.update d o.dest (some v)) (fun g hg => hall g (by simp [hg]))
      refine ⟨d', ?_⟩
      rw [parseOptions, ho]
      simp only at hv ⊢
      rw [hv]
      exact hd'
  have hvals : ∀ {d : CliDict}, parseOptions c given cliDefault = .ok d → ∀ e ∈ documentedParams, ∀ v,
      SettingsValue (settingsKeys.filterMap (fun k => (d k).map (fun v => (k, v)))) e.1 v ↔
        CommandLineValue c given e.1 v := by
    intro d hd e he v
    have hsome := (known_iff e.1).mpr ⟨e.2, he⟩
    have hk : e.1 ∈ settingsKeys := (settingsKeys_iff _).mpr hsome
    obtain ⟨v0, hv0⟩ := Option.isSome_iff_exists.mp hsome
    simp only [SettingsValue, lookup_filterMap, if_pos hk]
    obtain ⟨-, h2⟩ := parseOptions_spec hd
    rcases h2 e.1 with ⟨i, f, w, o, v', e1, e2, e3, e4, e5, e6⟩ | ⟨e1, e2⟩
    · rw [e6]
      constructor
      · rintro (h | ⟨h, -⟩)
        · cases h; exact .given e1 e2 e3 e4 e5
        · cases h
      · intro h
        left
        cases h with
        | @given i' f' w' o' _ g1 g2 g3 g4 g5 =>
          rcases Nat.lt_trichotomy i i' with hlt | heq | hgt
          · exact absurd g3 (e5 i' (f', w') o' hlt g1 g2)
          · subst heq
            rw [e1] at g1; cases g1
            rw [e2] at g2; cases g2
            rw [e4] at g4; cases g4; rfl
          · exact absurd e3 (g5 i (f, w) o hgt e1 e2)
        | default g1 _ => exact absurd e3 (g1 _ (List.mem_of_getElem? e1) o e2)
    · rw [e2, cliDefault_settings hk]
      constructor
      · rintro (h | ⟨h, -⟩)
        · exact .default e1 h
        · rw [hv0] at h; cases h
      · intro h
        left
        cases h with
        | given g1 g2 g3 => exact absurd g3 (e1 _ (List.mem_of_getElem? g1) _ g2)
        | default _ g2 => exact g2
  constructor
  · rintro ⟨s, h⟩
    unfold cliSettings at h
    split at h
    · cases h
    · rename_i d hd
      split at h
      · cases h
      · rename_i s' hs
        refine ⟨(parseOptions_spec hd).1, fun e he v hv => ?_⟩
        exact ((C57_validation _).1.mp ⟨_, hs⟩).2 e he v ((hvals hd e he v).mpr hv)
  · rintro ⟨h1, h2⟩
    obtain ⟨d, hd⟩ := hparse given cliDefault h1
    have : ∃ s, fromDictionary (settingsKeys.filterMap (fun k => (d k).map (fun v => (k, v)))) = .ok s := by
      refine (C57_validation _).1.mpr ⟨?_, fun e he v hv => h2 e he v ((hvals hd e he v).mp hv)⟩
      intro a ha
      obtain ⟨k, hk, e⟩ := List.mem_filterMap.mp ha
      obtain ⟨v, -, rfl⟩ := Option.map_eq_some_iff.mp e
      exact (known_iff k).mp ((settingsKeys_iff k).mp hk)
    obtain ⟨s, hs⟩ := this
    exact ⟨s, by unfold cliSettings; rw [hd]; dsimp only; rw [hs]⟩

/-- **C94** Without options, the settings are those of `RbfoptSettings()`. -/
theorem C94_no_options (c : ArgConv) : ∃ s, cliSettings c [] = .ok s ∧
    ∀ name v, settingsDefaults.lookup name = some v → s name = v := by
  have hall : ∀ e ∈ documentedParams, ∀ v, CommandLineValue c [] e.1 v → e.2.Allows v := by
    obtain ⟨s, hs⟩ : ∃ s, fromDictionary [] = .ok s := by
      have h : (fromDictionary []).toOption.isSome = true := by decide +kernel
      revert h
      cases fromDictionary [] <;> simp [Except.toOption]
    intro e he v hv
    refine ((C57_validation []).1.mp ⟨s, hs⟩).2 e he v ?_
    cases hv with
    | given g1 => simp at g1
    | default _ g => exact .inr ⟨rfl, g⟩
  obtain ⟨s, hs⟩ := (C94_accepted_iff c []).mpr ⟨by simp, hall⟩
  refine ⟨s, hs, fun name v hv => ?_⟩
  have := C94_settings_are_those_given hs hv
  cases this with
  | given g1 => simp at g1
  | default _ g => rw [hv] at g; exact (Option.some.inj g).symm

/-- **C94** (violated part) The arguments of the yes/no options are not checked: any Python literal is
accepted, for instance a number or a word, and becomes the value of the parameter. -/
theorem C94_violated_boolean_options (c : ArgConv) {name w : String} {v : SVal}
    (hb : name ∈ ["do_infstep", "do_local_search", "init_include_midpoint", "targetval_clipping",
      "modified_msrsm_score", "print_solver_output", "debug"])
    (hl : c.literal w = .ok v) : ∃ s, cliSettings c [(name, w)] = .ok s ∧ s name = v := by
  have hopt : ∀ n ∈ ["do_infstep", "do_local_search", "init_include_midpoint", "targetval_clipping",
      "modified_msrsm_score", "print_solver_output", "debug"],
      (⟨n, n, .bool⟩ : CliOption) ∈ cliOptions ∧ (n, PKind.any) ∈ documentedParams ∧
        ∀ e ∈ documentedParams, e.1 = n → e.2 = PKind.any := by
    intro n hn
    have h1 : ∀ n ∈ ["do_infstep", "do_local_search", "init_include_midpoint", "targetval_clipping",
      "modified_msrsm_score", "print_solver_output", "debug"], (n, ArgType.bool) ∈ docstringOptions := by
      decide +kernel
    have h2 : ∀ n ∈ ["do_infstep", "do_local_search", "init_include_midpoint", "targetval_clipping",
      "modified_msrsm_score", "print_solver_output", "debug"],
      n ∈ documentedParams.map Prod.fst ∧ (documentedParams.all fun e => !(e.1 == n) ||
        match e.2 with | .any => true | _ => false) = true := by decide +kernel
    have h3 : ∀ e ∈ documentedParams, e.1 = n → e.2 = PKind.any := by
      intro e he e1
      have := List.all_eq_true.mp (h2 n hn).2 e he
      rw [e1] at this
      simp only [beq_self_eq_true, Bool.not_true, Bool.false_or] at this
      split at this
      · assumption
      · cases this
    refine ⟨List.mem_append_left _ (List.mem_map.mpr ⟨_, h1 n hn, rfl⟩), ?_, h3⟩
    obtain ⟨e, he, e1⟩ := List.mem_map.mp (h2 n hn).1
    have := h3 e he e1
    rw [← e1, ← this]; exact he
  obtain ⟨ho, hd, hu⟩ := hopt name hb
  have hr : resolveOption name = some ⟨name, name, .bool⟩ := resolveOption_registered ho
  obtain ⟨s0, hs0, -⟩ := C94_no_options c
  have hok := (C94_accepted_iff c []).mp ⟨s0, hs0⟩
  have : ∃ s, cliSettings c [(name, w)] = .ok s := by
    refine (C94_accepted_iff c _).mpr ⟨?_, ?_⟩
    · intro g hg
      rw [List.mem_singleton.mp hg]
      exact ⟨_, v, hr, hl⟩
    · intro e he u hcv
      by_cases hne : e.1 = name
      · rw [hu e he hne]; trivial
      · refine hok.2 e he u ?_
        cases hcv with
        | @given i f w' o _ g1 g2 g3 =>
          exfalso
          cases i with
          | succ i => simp at g1
          | zero =>
            simp only [List.getElem?_cons_zero, Option.some.injEq, Prod.mk.injEq] at g1
            obtain ⟨rfl, rfl⟩ := g1
            rw [hr] at g2
            cases g2
            exact hne g3.symm
        | default _ g => exact .default (by simp) g
  obtain ⟨s, hs⟩ := this
  refine ⟨s, hs, ?_⟩
  obtain ⟨v0, hv0⟩ := Option.isSome_iff_exists.mp ((known_iff name).mpr ⟨_, hd⟩)
  have := C94_settings_are_those_given hs hv0
  cases this with
  | @given i f w' o _ g1 g2 g3 g4 =>
    cases i with
    | succ i => simp at g1
    | zero =>
      simp only [List.getElem?_cons_zero, Option.some.injEq, Prod.mk.injEq] at g1
      obtain ⟨rfl, rfl⟩ := g1
      rw [hr] at g2
      cases g2
      simp only [ArgConv.apply] at g4
      rw [hl] at g4
      cases g4; rfl
  | default g _ => exact absurd rfl (g (name, w) (by simp) _ hr)

/-! ## Examples -/

-- An abbreviation, an option given twice, and an option of the interface.
example : ∃ s, cliSettings ⟨fun _ => .ok (.num 2), fun w => .ok (.num w.length), fun _ => .refused⟩
    [("max_iter", "aaa"), ("rbf", "cubic"), ("rbf", "linear"), ("log", "x.log")] = .ok s ∧
    s "max_iterations" = .num 3 ∧ s "rbf" = .str "linear" ∧ s "max_evaluations" = .num 300 := by
  have h : (match cliSettings ⟨fun _ => .ok (.num 2), fun w => .ok (.num w.length), fun _ => .refused⟩
      [("max_iter", "aaa"), ("rbf", "cubic"), ("rbf", "linear"), ("log", "x.log")] with
      | .ok s => decide (s "max_iterations" = .num 3) && decide (s "rbf" = .str "linear") &&
          decide (s "max_evaluations" = .num 300)
      | .error _ => false) = true := by decide +kernel
  split at h
  · rename_i s hs
    rw [Bool.and_eq_true, Bool.and_eq_true] at h
    exact ⟨s, hs, of_decide_eq_true h.1.1, of_decide_eq_true h.1.2, of_decide_eq_true h.2⟩
  · cases h

-- `--ref` is ambiguous, `--max_random` is not.
example : resolveOption "ref" = none ∧ (resolveOption "max_random").map CliOption.dest =
    some "max_random_init" := by decide +kernel

/-- **C94** Which words make the program fail: the options are read from left to right, and the first
one that is unknown, ambiguous or whose value is refused by the conversion leads to the usage message;
an exception of the conversion that `argparse` does not expect (e.g. the `SyntaxError` of
`ast.literal_eval`) ends the program as it is. -/
theorem C94_first_bad_option (c : ArgConv) (given : List (String × String)) (d : CliDict)
    (e : ParseErr) : parseOptions c given d = .error e ↔
      ∃ pre f w post, given = pre ++ (f, w) :: post ∧
        (∀ x ∈ pre, ∃ o v, resolveOption x.1 = some o ∧ c.apply o.ty x.2 = .ok v) ∧
        ((e = .usage ∧ (resolveOption f = none ∨
            ∃ o, resolveOption f = some o ∧ c.apply o.ty w = .refused)) ∨
          ∃ o x, resolveOption f = some o ∧ c.apply o.ty w = .raised x ∧ e = .raised x) := by
  induction given generalizing d with
  | nil => simp [parseOptions]
  | cons x rest ih =>
    obtain ⟨f, w⟩ := x
    have hcons : ∀ (Q : Prop), (Q ↔ ((e = .usage ∧ (resolveOption f = none ∨
            ∃ o, resolveOption f = some o ∧ c.apply o.ty w = .refused)) ∨
          ∃ o x, resolveOption f = some o ∧ c.apply o.ty w = .raised x ∧ e = .raised x) ∨
        ((∃ o v, resolveOption f = some o ∧ c.apply o.ty w = .ok v) ∧
          ∃ pre f w post, rest = pre ++ (f, w) :: post ∧
          (∀ x ∈ pre, ∃ o v, resolveOption x.1 = some o ∧ c.apply o.ty x.2 = .ok v) ∧
          ((e = .usage ∧ (resolveOption f = none ∨
            ∃ o, resolveOption f = some o ∧ c.apply o.ty w = .refused)) ∨
          ∃ o x, resolveOption f = some o ∧ c.apply o.ty w = .raised x ∧ e = .raised x))) →
        (Q ↔ ∃ pre f' w' post, (f, w) :: rest = pre ++ (f', w') :: post ∧
        (∀ x ∈ pre, ∃ o v, resolveOption x.1 = some o ∧ c.apply o.ty x.2 = .ok v) ∧
        ((e = .usage ∧ (resolveOption f' = none ∨
            ∃ o, resolveOption f' = some o ∧ c.apply o.ty w' = .refused)) ∨
          ∃ o x, resolveOption f' = some o ∧ c.apply o.ty w' = .raised x ∧ e = .raised x)) := by
      intro Q hQ
      rw [hQ]
      constructor
      · rintro (h | ⟨h0, pre, f', w', post, rfl, h1, h2⟩)
        · exact ⟨[], f, w, rest, rfl, by simp, h⟩
        · refine ⟨(f, w) :: pre, f', w', post, rfl, ?_, h2⟩
          intro x hx
          rcases List.mem_cons.mp hx with rfl | hx
          · exact h0
          · exact h1 x hx
      · rintro ⟨pre, f', w', post, he, h1, h2⟩
        cases pre with
        | nil =>
          simp only [List.nil_append, List.cons.injEq, Prod.mk.injEq] at he
          obtain ⟨⟨rfl, rfl⟩, rfl⟩ := he
          exact Or.inl h2
        | cons y pre =>
          simp only [List.cons_append, List.cons.injEq] at he
          obtain ⟨rfl, rfl⟩ := he
          exact Or.inr ⟨h1 _ List.mem_cons_self, pre, f', w', post, rfl,
            fun x hx => h1 x (List.mem_cons_of_mem _ hx), h2⟩
    apply hcons
    unfold parseOptions
    cases hf : resolveOption f with
    | none => simp [eq_comm]
    | some o =>
      dsimp only
      cases hc : c.apply o.ty w with
      | refused => simp [hc, eq_comm]
      | raised x => simp [hc, eq_comm]
      | ok v => simp [hc, ih]

end Rbfopt
