import Verif.Model.CliMain
import Verif.Props.CliOptions
import Verif.Props.Cli
import Verif.Props.StopNoisy
import Verif.Examples.Demo

/-!
# C94: the command line as a whole
-/

namespace Rbfopt

variable {B A R : Type} {c : ArgConv} {w : CliWorld B A R} {given : List (String × String)}
  {file : String}

/-- The last option of the command line that is stored at `dest` has the argument `arg`. -/
def LastOption (given : List (String × String)) (dest arg : String) (ty : ArgType) : Prop :=
  ∃ (i : ℕ) (f : String) (o : CliOption), given[i]? = some (f, arg) ∧ resolveOption f = some o ∧
    o.dest = dest ∧ o.ty = ty ∧
    ∀ (j : ℕ) (g : String × String) (o' : CliOption), i < j → given[j]? = some g →
      resolveOption g.1 = some o' → o'.dest ≠ dest

/-- No option of the command line is stored at `dest`. -/
def NoOption (given : List (String × String)) (dest : String) : Prop :=
  ∀ g ∈ given, ∀ o, resolveOption g.1 = some o → o.dest ≠ dest

theorem cliOptions_types : ∀ o ∈ cliOptions,
    (o.dest ∈ ["load_state", "output_stream", "points_file", "dump_state"] → o.ty = .str) ∧
    (o.dest = "pause" → o.ty = .int) := by
  decide +kernel

/-- The string options of the interface after parsing. -/
theorem parse_str {d : CliDict} (h : parseOptions c given cliDefault = .ok d) {dest : String}
    (hd : dest ∈ ["load_state", "output_stream", "points_file", "dump_state"]) :
    (∃ arg, LastOption given dest arg .str ∧ strVal (d dest) = some arg) ∨
      NoOption given dest ∧ strVal (d dest) = none := by
  rcases (parseOptions_spec h).2 dest with ⟨i, f, a, o, v, e1, e2, e3, e4, e5, e6⟩ | ⟨e1, e2⟩
  · have ht := (cliOptions_types o (resolveOption_mem e2).1).1 (by rw [e3]; exact hd)
    refine .inl ⟨a, ⟨i, f, o, e1, e2, e3, ht, e5⟩, ?_⟩
    rw [ht] at e4
    cases e4
    rw [e6]; rfl
  · refine .inr ⟨e1, ?_⟩
    have h0 : ∀ k ∈ ["load_state", "output_stream", "points_file", "dump_state"],
        cliDefault k = none := by decide +kernel
    rw [e2, h0 dest hd]; rfl

/-- What the pause length is. -/
theorem parse_pause {d : CliDict} (h : parseOptions c given cliDefault = .ok d) :
    (∃ arg v, LastOption given "pause" arg .int ∧ c.int arg = .ok v ∧ d "pause" = some v) ∨
      NoOption given "pause" ∧ d "pause" = some (.num (2 ^ 63 - 1)) := by
  rcases (parseOptions_spec h).2 "pause" with ⟨i, f, a, o, v, e1, e2, e3, e4, e5, e6⟩ | ⟨e1, e2⟩
  · have ht := (cliOptions_types o (resolveOption_mem e2).1).2 e3
    refine .inl ⟨a, v, ⟨i, f, o, e1, e2, e3, ht, e5⟩, ?_, e6⟩
    rw [ht] at e4
    exact e4
  · exact .inr ⟨e1, by rw [e2]; norm_num [cliDefault]⟩

/-- The object that is optimized: the state of the last `--load`; otherwise a new object for the black box and
the settings, with the points of the last `--points_from_file` if there is one. -/
inductive CliObject (w : CliWorld B A R) (given : List (String × String)) (bb : B) (s : Settings) : A → Prop
  | loaded {path : String} {a : A} : LastOption given "load_state" path .str → w.load path = .ok a →
      CliObject w given bb s a
  | points {path : String} {u : CliTable} {a : A} : NoOption given "load_state" →
      LastOption given "points_file" path .str → cliPoints (w.dim bb) (w.text path) = .ok u →
      w.create bb s (some u) = .ok a → CliObject w given bb s a
  | fresh {a : A} : NoOption given "load_state" → NoOption given "points_file" →
      w.create bb s none = .ok a → CliObject w given bb s a

/-- **C94** (the whole program) If the program finishes, the black box file exists and provides a black box,
the settings are those of the command line, the object optimized is the one it asks for, `optimize` is called
once with the pause length given, or `sys.maxsize` if none is; the optimized object is saved if and only if
this was asked for, in the file given last; and a log file that was given could be opened. -/
theorem C94_main {openOut o' : Bool} {r : R} {saved : Option A} {path : Option String}
    (h : cliMain c w given file openOut = .ok ((.ok (r, saved), o'), path)) :
    ∃ bb s a a' pause, w.isFile file = true ∧ w.blackBox file = .ok (some bb) ∧
      (∀ name v0, settingsDefaults.lookup name = some v0 → CommandLineValue c given name (s name)) ∧
      CliObject w given bb s a ∧ w.run a (some pause) = .ok (r, a') ∧
      ((∃ arg, LastOption given "pause" arg .int ∧ c.int arg = .ok pause) ∨
        NoOption given "pause" ∧ pause = .num (2 ^ 63 - 1)) ∧
      ((∃ f, LastOption given "dump_state" f .str ∧ path = some f ∧ saved = some a') ∨
        NoOption given "dump_state" ∧ path = none ∧ saved = none) ∧
      ((∃ f, LastOption given "output_stream" f .str ∧ w.writable f = true) ∨
        NoOption given "output_stream" ∧ openOut = true) := by
  unfold cliMain at h
  cases hp : parseOptions c given cliDefault with
  | error e => rw [hp] at h; cases h
  | ok d =>
    rw [hp] at h
    dsimp only at h
    split at h
    · cases h
    · rename_i hf
      split at h
      · cases h
      · cases h
      · rename_i bb hbb
        injection h with h
        obtain ⟨h, hpath⟩ := Prod.mk.injEq .. ▸ h
        unfold cliInterface at h
        dsimp only at h
        split at h
        · cases h
        · rename_i s hs
          split at h
          · cases h
          · rename_i hlog
            split at h
            · cases h
            · rename_i hout
              split at h
              · cases h
              · rename_i a ha
                split at h
                · cases h
                · rename_i r' a' hrun
                  cases h
                  have hset : cliSettings c given = .ok s := by
                    unfold cliSettings
                    rw [hp]; dsimp only; rw [hs]
                  obtain ⟨pause, hpz, hpause⟩ : ∃ pause, d "pause" = some pause ∧
                      ((∃ arg, LastOption given "pause" arg .int ∧ c.int arg = .ok pause) ∨
                        NoOption given "pause" ∧ pause = .num (2 ^ 63 - 1)) := by
                    rcases parse_pause hp with ⟨arg, v, g1, g2, g3⟩ | ⟨g1, g2⟩
                    · exact ⟨v, g3, .inl ⟨arg, g1, g2⟩⟩
                    · exact ⟨_, g2, .inr ⟨g1, rfl⟩⟩
                  refine ⟨bb, s, a, a', pause, by simpa using hf, hbb,
                    fun name v0 hn => C94_settings_are_those_given hset hn, ?_, ?_, hpause, ?_, ?_⟩
                  · unfold cliAlg at ha
                    rcases parse_str hp (dest := "load_state") (by simp) with ⟨f, g1, g2⟩ | ⟨g1, g2⟩
                    · rw [g2] at ha
                      exact .loaded g1 (by simpa [loadState] using ha)
                    · rw [g2] at ha
                      rcases parse_str hp (dest := "points_file") (by simp) with ⟨f, k1, k2⟩ | ⟨k1, k2⟩
                      · rw [k2] at ha
                        simp only [Option.isSome_none, Bool.false_eq_true, if_false, Option.map_some] at ha
                        split at ha
                        · cases ha
                        · rename_i u hu
                          exact .points g1 k1 hu ha
                      · rw [k2] at ha
                        exact .fresh g1 k1 (by simpa using ha)
                  · rw [hpz] at hrun; exact hrun
                  · rcases parse_str hp (dest := "dump_state") (by simp) with ⟨f, g1, g2⟩ | ⟨g1, g2⟩
                    · exact .inl ⟨f, g1, by rw [← hpath, g2], by rw [g2]; rfl⟩
                    · exact .inr ⟨g1, by rw [← hpath, g2], by rw [g2]; rfl⟩
                  · rcases parse_str hp (dest := "output_stream") (by simp) with ⟨f, g1, g2⟩ | ⟨g1, g2⟩
                    · refine .inl ⟨f, g1, ?_⟩
                      rw [g2] at hlog
                      simpa using hlog
                    · refine .inr ⟨g1, ?_⟩
                      rw [g2] at hout
                      simpa using hout

theorem lastOption_unique {dest a a' : String} {ty ty' : ArgType} (h : LastOption given dest a ty)
    (h' : LastOption given dest a' ty') : a = a' := by
  obtain ⟨i, f, o, e1, e2, e3, e4, e5⟩ := h
  obtain ⟨j, f', o', k1, k2, k3, k4, k5⟩ := h'
  rcases lt_trichotomy i j with hl | rfl | hl
  · exact absurd k3 (e5 j _ o' hl k1 k2)
  · rw [e1] at k1; cases k1; rfl
  · exact absurd e3 (k5 i _ o hl e1 e2)

theorem lastOption_not {dest a : String} {ty : ArgType} (h : LastOption given dest a ty)
    (h' : NoOption given dest) : False := by
  obtain ⟨i, f, o, e1, e2, e3, e4, e5⟩ := h
  exact h' _ (List.mem_of_getElem? e1) o e2 e3

/-- **C94** What happens to a wrong positional argument, whatever the (valid) options: a path that is no file
and a file whose black box is no `RbfoptBlackBox` raise `ValueError`; an exception of the user's module is
passed on. -/
theorem C94_main_wrong_file {openOut : Bool} {d : CliDict} (hp : parseOptions c given cliDefault = .ok d) :
    (w.isFile file = false → cliMain c w given file openOut = .error (.raised .valueError)) ∧
    (w.isFile file = true → w.blackBox file = .ok none →
      cliMain c w given file openOut = .error (.raised .valueError)) ∧
    (∀ e, w.isFile file = true → w.blackBox file = .error e →
      cliMain c w given file openOut = .error (.raised e)) := by
  refine ⟨fun h => ?_, fun h1 h2 => ?_, fun e h1 h2 => ?_⟩ <;> unfold cliMain <;> rw [hp] <;> dsimp only
  · rw [if_pos h]
  · rw [if_neg (by simp [h1]), h2]
  · rw [if_neg (by simp [h1]), h2]

/-- **C94** Conversely the program finishes, with the result of `optimize`, if the black box file exists and
provides a black box, the settings are acceptable, the object can be obtained, the log can be written and
`optimize` does not raise. -/
theorem C94_main_finishes {openOut : Bool} {r : R} {bb : B} {s : Settings} {a a' : A} {pause : SVal}
    (h1 : w.isFile file = true) (h2 : w.blackBox file = .ok (some bb)) (h3 : cliSettings c given = .ok s)
    (h4 : CliObject w given bb s a) (h5 : w.run a (some pause) = .ok (r, a'))
    (h6 : (∃ arg, LastOption given "pause" arg .int ∧ c.int arg = .ok pause) ∨
        NoOption given "pause" ∧ pause = .num (2 ^ 63 - 1))
    (h7 : (∃ f, LastOption given "output_stream" f .str ∧ w.writable f = true) ∨
        NoOption given "output_stream" ∧ openOut = true) :
    ∃ saved o' path, cliMain c w given file openOut = .ok ((.ok (r, saved), o'), path) := by
  unfold cliSettings at h3
  cases hp : parseOptions c given cliDefault with
  | error e => rw [hp] at h3; cases h3
  | ok d =>
    rw [hp] at h3
    dsimp only at h3
    split at h3
    · cases h3
    · rename_i s' hs
      cases h3
      have hpause : d "pause" = some pause := by
        rcases parse_pause hp with ⟨arg, v, g1, g2, g3⟩ | ⟨g1, g2⟩ <;>
        rcases h6 with ⟨arg', k1, k2⟩ | ⟨k1, k2⟩
        · rw [lastOption_unique g1 k1, k2] at g2; cases g2; exact g3
        · exact (lastOption_not g1 k1).elim
        · exact (lastOption_not k1 g1).elim
        · rw [g2, k2]
      have hlog : (strVal (d "output_stream")).map w.writable ≠ some false ∧
          (((strVal (d "output_stream")).map w.writable).isNone && !openOut) = false := by
        rcases parse_str hp (dest := "output_stream") (by simp) with ⟨f, g1, g2⟩ | ⟨g1, g2⟩ <;>
        rcases h7 with ⟨f', k1, k2⟩ | ⟨k1, k2⟩
        · rw [g2, lastOption_unique g1 k1]; simp [k2]
        · exact (lastOption_not g1 k1).elim
        · exact (lastOption_not k1 g1).elim
        · rw [g2]; simp [k2]
      refine ⟨if (strVal (d "dump_state")).isSome then some a' else none,
        openOut && !((strVal (d "output_stream")).map w.writable).isNone, strVal (d "dump_state"), ?_⟩
      · unfold cliMain
        rw [hp]
        dsimp only
        rw [if_neg (by simp [h1]), h2]
        dsimp only
        unfold cliInterface
        dsimp only
        rw [hs]
        dsimp only
        rw [if_neg hlog.1, hlog.2, if_neg (by simp)]
        have ha : cliAlg (R := R) (⟨.ok s,
            loadState w (strVal (d "load_state")), w.create bb, fun a => w.run a (d "pause"), w.dim bb⟩ :
              CliEnv Settings A R)
            ⟨(strVal (d "output_stream")).map w.writable, (strVal (d "load_state")).isSome,
              (strVal (d "points_file")).map w.text, (strVal (d "dump_state")).isSome⟩ s = .ok a := by
          unfold cliAlg
          rcases parse_str hp (dest := "load_state") (by simp) with ⟨f, g1, g2⟩ | ⟨g1, g2⟩
          · rw [g2]
            cases h4 with
            | loaded k1 k2 => simp [loadState, lastOption_unique g1 k1, k2]
            | points k1 => exact (lastOption_not g1 k1).elim
            | fresh k1 => exact (lastOption_not g1 k1).elim
          · rw [g2]
            rcases parse_str hp (dest := "points_file") (by simp) with ⟨f, p1, p2⟩ | ⟨p1, p2⟩
            · rw [p2]
              cases h4 with
              | loaded k1 k2 => exact (lastOption_not k1 g1).elim
              | points k1 k2 k3 k4 => simp [lastOption_unique p1 k2, k3, k4]
              | fresh k1 k2 => exact (lastOption_not p1 k2).elim
            · rw [p2]
              cases h4 with
              | loaded k1 k2 => exact (lastOption_not k1 g1).elim
              | points k1 k2 k3 k4 => exact (lastOption_not k2 p1).elim
              | fresh k1 k2 k3 => simp [k3]
        rw [ha]
        dsimp only
        rw [hpause, h5]

/-- **C94** Without `--pause` the pause length does not end the optimization: a call of `optimize` on a new
object with this length never returns because of it, unless `max_iterations` is reached too. -/
theorem C94_default_pause {O : Type} {P : Params} {env : Env O} {o : O} {fuel : ℕ} {r : OptResult O}
    (hmax : P.maxIter ≤ 2 ^ 63 - 1) (hd : ∀ p, env.dist p p = 0) (hm : 0 ≤ P.minDist) (hz : 0 < P.epsZero)
    (hn : ∀ before x, 0 ≤ (env.evalNoisy before x).2.2)
    (h : optimize P env fuel (2 ^ 63 - 1) (Alg.init P o) = .ret r) :
    P.maxIter ≤ r.itercount ∨ P.maxEval ≤ r.evalcount ∨
    P.searchSpace ≤ ((r.evalcount : ℚ) : EVal) ∨ (P.maxCycles : ℤ) ≤ r.final.cyc ∨
    (∃ s' : Alg O, r.final = { s' with elapsed := r.final.elapsed } ∧
      P.maxClock ≤ ((env.clock s' : ℚ) : EVal)) ∨
    ∃ b : ℚ, r.final.fbest = (b : EVal) ∧ b ≤ r.value ∧ (r.final.mode = .noisy → b = r.value) ∧
      b ≤ P.target + P.epsOpt * (if P.epsZero ≤ |P.target| then |P.target| else 1) := by
  rcases C12_stop_reason_two_phase hd hm hz hn Reach.init h with g | g | g
  · exact .inl (by omega)
  · exact .inl g
  · exact .inr g

/-! ## Concrete cases -/

namespace Demo

/-- A world where the file `bb.py` provides a black box of dimension 1, objects are pairs of a name and a
number of points, and `optimize` returns the pause length it was given. -/
def cliWorld : CliWorld ℕ (String × ℕ) (Option SVal) where
  isFile f := f == "bb.py"
  blackBox _ := .ok (some 1)
  writable f := f == "log.txt"
  load f := .ok (f, 0)
  text _ := [[.num 1], [.num 2]]
  create _ _ u := .ok ("new", (u.map (fun u => u.pos.length)).getD 0)
  run a v := .ok (v, a)
  dim b := b

def cliConv : ArgConv where
  float _ := .refused
  int x := .ok (.num x.length)
  literal _ := .refused

/-- Result, object saved and name of the file. -/
def cliView (x : Except ParseErr (CliOut (String × ℕ) (Option SVal) × Option String)) :
    Option (Option SVal × Option (String × ℕ) × Option String) :=
  x.toOption.bind fun y => y.1.1.toOption.map fun z => (z.1, z.2, y.2)

/-- Points from a file, a pause length, the state saved; and a loaded state with the last of two logs. -/
example :
    cliView (cliMain cliConv cliWorld [("points_from_file", "p.txt"), ("pause", "abc"), ("save", "s.dat")]
      "bb.py" true) = some (some (.num 3), some ("new", 2), some "s.dat") := by
  decide +kernel

example :
    cliView (cliMain cliConv cliWorld [("load", "a.dat"), ("log", "x.txt"), ("log", "log.txt"), ("load", "b.dat"),
      ("points_from_file", "p.txt"), ("save", "s.dat")] "bb.py" true) =
      some (some (.num (2 ^ 63 - 1)), some ("b.dat", 0), some "s.dat") := by
  decide +kernel

example : (optimize P env 40 (2 ^ 63 - 1) (Alg.init P 0)).result?.map (fun r => r.itercount) = some 4 ∧
    P.maxIter ≤ 2 ^ 63 - 1 := by
  decide +kernel

end Demo

end Rbfopt
