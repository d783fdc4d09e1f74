import Verif.Lemmas.ParallelBest
import Verif.Lemmas.ParallelInv
import Verif.Lemmas.Invariants

/-! Error intervals of accurate records, and the stars of the log, in the parallel engine. -/

namespace Rbfopt

variable {O : Type} {P : Params} {env : Env O} {pe : PEnv O}

/-- Accurate records carry no interval. -/
def ParFlagOK (t : Table) : Prop := t.All (fun _ _ b e => b = false → e = (0, 0))

theorem ParFlagOK.remove {a a' : Alg O} {i : ℕ} (h : ParFlagOK a.all)
    (hr : removeNode a i a.nAtRestart = .ok a') : ParFlagOK a'.all := by
  obtain ⟨_, _, rfl⟩ := removeNode_spec hr
  exact Table.All.eraseIdx h _

theorem PReach.flag {o : O} {c : PCtl} {s : PState O} (h : PReach P env pe o c s) :
    ParFlagOK s.alg.all := by
  refine h.inductB (I := fun s => ParFlagOK s.alg.all) ?_ ?_ ?_ ?_ ?_ ?_ ?_ ?_ ?_ ?_ ?_
  · simp [ParFlagOK, Alg.init, Table.All]
  · intro s s' _ hI hc
    have e : s'.alg.all = s.alg.all := congrArg Data.all hc.data
    show ParFlagOK s'.alg.all
    rw [e]; exact hI
  · intro s s' b j hb hI hp hc
    obtain ⟨job, d, hj, hd, hcase⟩ := collectJob_cases hc
    rcases hcase with ⟨_, tb, rfl⟩ | ⟨_, hn, _, a, ha, rfl⟩ |
      ⟨_, gap, a, a', rc, rb, hg, hda, _, _, _, ha, _, _, rfl⟩
    · exact hI
    · obtain ⟨-, -, -, -, -, -, -, -, c1, -⟩ := endPass_ctl ha
      exact Table.All.of_eq c1 hI
    · have hadd := addJob_spec (pe := pe) (env := env) s.alg job
      obtain ⟨g, st, hl⟩ := updateLog_frame (addJob pe env s.alg job) (jobResult pe job).1 gap
      rw [hl] at hda
      have d1 : a.all = (addJob pe env s.alg job).all := congrArg Data.all hda
      obtain ⟨-, -, -, -, -, -, -, -, c1, -⟩ := endPass_ctl ha
      refine Table.All.of_eq (c1.trans (d1.trans hadd.all)) (Table.All.snoc hb.wf.allA hI ?_)
      intro hjn
      simp [jobResult, hjn]
  · intro s s' j res hb hI hp hi hc
    obtain ⟨job, rd, a, tb, hj, ha, hcase⟩ := harvestJob_cases hc
    have hfa : ParFlagOK a.all ∧ a.all.Aligned := by
      rcases ha with rfl | ⟨i, _, _, _, _, ha⟩
      · exact ⟨hI, hb.wf.allA⟩
      · refine ⟨ParFlagOK.remove hI ha, ?_⟩
        obtain ⟨_, _, rfl⟩ := removeNode_spec ha
        exact hb.wf.allA.eraseIdx _
    rcases hcase with rfl | ⟨p0, hp0, hu, ⟨b, v, hr, hre⟩ | ⟨hr, rfl⟩⟩
    · obtain ⟨nc, rc, rb, _, _, e⟩ := harvestDiscard_eq (P := P) (takeSearch s j rd a tb) job.tag
      rw [e]
      exact hfa.1
    · obtain ⟨a1, e, gap, a2, hadd, hz, _, hg, he, rfl⟩ := harvestReuse_cases hre
      obtain ⟨-, -, -, -, -, -, -, -, c1, -⟩ := endPass_ctl he
      obtain ⟨g, st, hl⟩ := updateLog_frame a1 v gap
      rw [hl] at c1 he
      exact Table.All.of_eq (c1.trans hadd.all) (Table.All.snoc hfa.2 hfa.1 hz.1)
    · exact hfa.1
  · intro s s' pc hb hI he hs hr _ gap
    obtain ⟨pts, noisy, o, done, rest, prev, u, calls, a, m, M, i, hp⟩ := restartPar_ok hr
    have ho := hp.install
    have hall : a.all = s.alg.all.append
      (((initTable pe (decide (s.alg.mode = .noisy)) done).append prev).append u) := ho.all
    rw [hp.eq]
    refine Table.All.of_eq hall (Table.All.append hb.wf.allA hI
        (Table.All.append ((initTable_aligned _ _).append hp.prevA)
        (Table.All.append (initTable_aligned _ _) ?_ ?_) ?_))
    · intro k p v b e g1 g2 g3 g4 hbf
      simp only [initTable, List.getElem?_map, Option.map_eq_some_iff] at g1 g2 g3 g4
      obtain ⟨x, hx, rfl⟩ := g1
      rw [hx] at g2 g3 g4
      simp only [Option.some.injEq, exists_eq_left'] at g2 g3 g4
      subst g2 g3 g4
      obtain ⟨k1, k2, k3, k4⟩ := initJobs_get
        (hp.perm.mem_iff.mp (List.mem_append_left rest (List.mem_of_getElem? hx)))
      have hnf : noisy = false := by
        cases hn : noisy
        · rfl
        · simp [hp.noisyMode hn] at hbf
      simp [jobResult, k3, hnf]
    · exact hp.prevAll.mono (fun p v b e hh => hI.has hh.1)
    · refine hp.uAll.mono ?_
      rintro p v b e ⟨k, k1, k2, k3, _⟩ _
      exact k3
  · intro s a rd rb noisy tag _ hI hp hd _ hn
    exact Table.All.of_eq (congrArg Data.all hd) hI
  · intro s s' job todo hb hI hp he hc
    obtain ⟨hn, _, a, gap, g, st, ha, _, rfl⟩ := closeJob_cases hc
    exact Table.All.of_eq ha.all (Table.All.snoc hb.wf.allA hI (fun _ => rfl))
  · intro s pc rc gap _ hI _ _
    exact hI
  · intro s t _ hI _
    exact hI
  · intro s _ hI _
    exact hI
  · intro s t _ hI _ _ hc
    obtain ⟨pts, noisy, o, rfl, hm, -⟩ := hc.frame
    exact hI

/-- **C06** The same in the parallel engine, for every order in which results arrive: a record
flagged accurate carries no error interval; without `evaluate_noisy` no record is flagged noisy. -/
theorem C06_parallel {o : O} {c : PCtl} {s : PState O} (h : PReach P env pe o c s) :
    s.alg.all.All (fun _ _ b e => b = false → e = (0, 0)) ∧
    (P.twoPhase = false → s.alg.all.All (fun _ _ b _ => b = false)) :=
  ⟨h.flag, fun hP => (h.single hP).all.mono (fun _ _ _ _ h => h.1)⟩

/-! ## Stars -/

theorem StarsOK.of_data {a b : Alg O} (h : StarsOK a) (e : b.data = a.data) : StarsOK b :=
  h.congr (congrArg Data.stars e) (congrArg Data.bestGapShown e)

theorem StarsOK.endPass {a a' : Alg O} (h : StarsOK a) (e : endPass P a = .ok a') : StarsOK a' := by
  unfold Rbfopt.endPass at e
  dsimp only at e
  split at e
  · cases e
  · cases e
    unfold phaseUpdate stallingUpdate
    dsimp only
    split <;> (try split) <;> (try split) <;> exact h.congr rfl rfl

theorem StarsOK.install {t : Table} {a a' : Alg O} (h : StarsOK a)
    (hr : restartInstall P env t a = .ok a') : StarsOK a' := by
  unfold restartInstall at hr
  dsimp only at hr
  split at hr
  · cases hr
  · split at hr
    · split at hr
      · cases hr
      · split at hr
        · cases hr
        · split at hr
          · cases hr
          · cases hr
            apply StarsOK.logInit
            refine h.congr ?_ ?_ <;> (dsimp only; split <;> rfl)
    · cases hr

theorem StarsOK.restartPar {s s' : PState O} (h : StarsOK s.alg)
    (hr : RestartPar P env pe s (.ok s')) : StarsOK s'.alg := by
  generalize hr' : (Except.ok s' : Except PyErr (PState O)) = r at hr
  cases hr with
  | failed h => cases hr'
  | @ends s1 prev sel done rest hb hp hn hz =>
    obtain ⟨pts, noisy, o, rfl, q1, q2, q3, q4⟩ := restartBegin_cases hb
    symm at hr'
    unfold restartEnd at hr'
    dsimp only at hr'
    split at hr'
    · cases hr'
    · rename_i t a hu
      split at hr'
      · cases hr'
      · rename_i a' hi
        cases hr'
        obtain ⟨al, calls, u, rfl, hua, rfl, hcn, hall⟩ :=
          restartUser_spec hu ((initTable_aligned _ _).append q2)
        have key : StarsOK (beginAlg s.alg o noisy pts.length) := h.congr rfl rfl
        have hi' := StarsOK.install (StarsOK.congr key ?_ ?_) hi
        · exact hi'
        · rfl
        · rfl

theorem StarsOK.addOut {a b : Alg O} {p orig : Pt} {v : ℚ} {f : Bool} {e : ℚ × ℚ} (h : StarsOK a)
    (ha : AddOut a b p orig v f e) : StarsOK b := by
  obtain ⟨-, -, -, -, -, r1, r2, -⟩ := ha.rest
  exact h.congr r2 r1

theorem PReach.stars {o : O} {c : PCtl} {s : PState O} (h : PReach P env pe o c s) :
    StarsOK s.alg := by
  refine h.inductB (I := fun s => StarsOK s.alg) ?_ ?_ ?_ ?_ ?_ ?_ ?_ ?_ ?_ ?_ ?_
  · simp [StarsOK, Alg.init]
  · intro s s' _ hI hc
    exact hI.of_data hc.data
  · intro s s' b j hb hI hp hc
    obtain ⟨job, d, hj, hd, hcase⟩ := collectJob_cases hc
    rcases hcase with ⟨_, tb, rfl⟩ | ⟨_, hn, _, a, ha, rfl⟩ |
      ⟨_, gap, a, a', rc, rb, hg, hda, _, _, _, ha, _, _, rfl⟩
    · exact hI
    · refine StarsOK.endPass (a := { s.alg with evalcount := s.alg.evalcount + 1 }) ?_ ha
      exact hI.congr rfl rfl
    · have hadd := addJob_spec (pe := pe) (env := env) s.alg job
      exact StarsOK.endPass (StarsOK.of_data ((hI.addOut hadd).updateLog _ _) hda) ha
  · intro s s' j res hb hI hp hi hc
    obtain ⟨job, rd, a, tb, hj, ha, hcase⟩ := harvestJob_cases hc
    have hfa : StarsOK a := by
      rcases ha with rfl | ⟨i, _, _, _, _, ha⟩
      · exact hI
      · obtain ⟨_, _, rfl⟩ := removeNode_spec ha
        exact hI
    rcases hcase with rfl | ⟨p0, hp0, hu, ⟨b, v, hr, hre⟩ | ⟨hr, rfl⟩⟩
    · obtain ⟨nc, rc, rb, _, _, e⟩ := harvestDiscard_eq (P := P) (takeSearch s j rd a tb) job.tag
      rw [e]
      exact hfa.congr rfl rfl
    · obtain ⟨a1, e, gap, a2, hadd, hz, _, hg, he, rfl⟩ := harvestReuse_cases hre
      exact StarsOK.endPass ((StarsOK.addOut hfa hadd).updateLog _ _) he
    · exact hfa.congr rfl rfl
  · intro s s' pc hb hI he hs hr _ gap
    exact (StarsOK.restartPar hI hr : StarsOK s'.alg)
  · intro s a rd rb noisy tag _ hI hp hd _ hn
    exact hI.of_data hd
  · intro s s' job todo hb hI hp he hc
    unfold closeJob at hc
    split at hc
    · cases hc
    · split at hc
      · split at hc <;> cases hc
      · dsimp only at hc
        split at hc
        · cases hc
        · cases hc
          have ha := addNode_spec s.alg job.pt (env.toOrig job.pt) (pe.acc job.id)
          exact ((StarsOK.addOut hI ha).updateLog _ _).congr rfl rfl
  · intro s pc rc gap _ hI _ _
    exact hI
  · intro s t _ hI _
    exact hI.congr rfl rfl
  · intro s _ hI _
    exact hI
  · intro s t _ hI _ _ hc
    obtain ⟨pts, noisy, o, rfl, hm, -⟩ := hc.frame
    exact hI.congr rfl rfl

/-- **C64** The same in the parallel engine: whatever the order in which results arrive, the starred
lines show strictly decreasing gaps, and each shows the best value known when it was printed. -/
theorem C64_parallel {o : O} {c : PCtl} {s : PState O} (h : PReach P env pe o c s) :
    (s.alg.stars.map (fun x => x.1)).Pairwise (· > ·) ∧
      ∀ x ∈ s.alg.stars, (x.2.1 : EVal) = x.2.2 :=
  ⟨h.stars.1, h.stars.2.2⟩

end Rbfopt
