import Verif.Lemmas.ParallelInv

/-! # Bookkeeping of the parallel engine -/

namespace Rbfopt

variable {O : Type} {P : Params} {env : Env O} {pe : PEnv O}

/-- The tables are aligned; unless a restart was interrupted, the current nodes are the records since the
last restart. -/
structure PTabs (c : Bool) (env : Env O) (s : Alg O) : Prop where
  curA : s.cur.Aligned
  allA : s.all.Aligned
  le : s.nAtRestart ≤ s.all.pos.length
  tail : c = false → WF env s
  errEq : c = false → ErrEq s

theorem WF.tabs {c : Bool} {s : Alg O} (h : WF env s) (he : ErrEq s) : PTabs c env s :=
  ⟨h.curA, h.allA, h.le, fun _ => h, fun _ => he⟩

theorem PTabs.of_data {c : Bool} {s t : Alg O} (h : PTabs c env s) (e : t.data = s.data) :
    PTabs c env t := by
  have e1 : t.cur = s.cur := congrArg Data.cur e
  have e2 : t.all = s.all := congrArg Data.all e
  have e3 : t.nAtRestart = s.nAtRestart := congrArg Data.nAtRestart e
  exact ⟨by rw [e1]; exact h.curA, by rw [e2]; exact h.allA, by rw [e2, e3]; exact h.le,
    fun hc => (h.tail hc).of_data e, fun hc => (h.errEq hc).of_data e⟩

theorem PTabs.of_tables {c : Bool} {s t : Alg O} (h : PTabs c env s) (e1 : t.cur = s.cur)
    (e2 : t.all = s.all) (e3 : t.nAtRestart = s.nAtRestart) : PTabs c env t := by
  refine ⟨by rw [e1]; exact h.curA, by rw [e2]; exact h.allA, by rw [e2, e3]; exact h.le,
    fun hc => ?_, fun hc => by unfold ErrEq; rw [e1, e2, e3]; exact h.errEq hc⟩
  have w := h.tail hc
  constructor <;> simp only [e1, e2, e3]
  exacts [w.curA, w.allA, w.le, w.val, w.noisy, w.err, w.pos]

theorem PTabs.add {c : Bool} {s s' : Alg O} {p : Pt} {v : ℚ} {b : Bool} {e : ℚ × ℚ}
    (h : PTabs c env s) (ha : AddOut s s' p (env.toOrig p) v b e) : PTabs c env s' := by
  have hle := h.le
  refine ⟨?_, ?_, ?_, fun hc => (h.tail hc).add ha,
    fun hc => ErrEq.add h.allA h.le (h.errEq hc) ha⟩
  · rw [ha.cur]; exact h.curA.append (by simp [Table.Aligned])
  · rw [ha.all]; exact h.allA.append (by simp [Table.Aligned])
  · rw [ha.all, ha.rest.2.2.2.2.1]; simp [Table.append]; omega

/-- Bookkeeping invariant. -/
structure PBook (env : Env O) (pe : PEnv O) (s : PState O) : Prop where
  wf : PTabs s.cut env s.alg
  ids : s.jobIds.Perm (List.range s.subs.length)
  jobs : ∀ x ∈ s.evals, ∃ orig, s.subs[x.id]? = some (orig, x.noisy, x.tag) ∧
    (orig = env.toOrig x.pt ∨ (x.tag = .init ∧ orig = x.pt))
  tpos : s.pc.Active → s.tPos = s.evals.map (fun x => x.pt)
  tnoisy : s.pc.Active → s.tNoisy = s.evals.map (fun x => x.noisy)
  tval : s.pc.Active → s.tVal.length = s.evals.length
  bound : s.evals.length + s.searches.length ≤ max pe.numCpus (s.left + 1)
  room : s.pc = .model → s.evals.length + s.searches.length < max pe.numCpus (s.left + 1)

theorem perm_move {α : Type} {a a' h r : List α} {x : α} (h1 : (x :: a').Perm a)
    (h2 : (a ++ h).Perm r) : (a' ++ (h ++ [x])).Perm r := by
  rw [← List.append_assoc]
  exact (List.perm_append_singleton x _).trans ((h1.append_right h).trans h2)

theorem perm_take {s : PState O} {j : ℕ} {job : EvalJob} (hj : s.evals[j]? = some job) :
    (job :: s.evals.eraseIdx j).Perm s.evals := by
  obtain ⟨h1, h2⟩ := List.getElem?_eq_some_iff.mp hj
  have := List.getElem_cons_eraseIdx_perm h1
  rwa [h2] at this

theorem perm_add {k : ℕ} {a h : List ℕ} (hp : (a ++ h).Perm (List.range k)) :
    ((a ++ [k]) ++ h).Perm (List.range (k + 1)) := by
  rw [List.range_succ, List.append_assoc]
  refine List.Perm.trans ?_ (hp.append_right [k])
  rw [List.append_assoc]
  exact List.Perm.append_left a List.perm_append_comm

theorem eraseIdx_map {α β : Type} (f : α → β) (l : List α) (i : ℕ) :
    (l.map f).eraseIdx i = (l.eraseIdx i).map f := by
  induction l generalizing i with
  | nil => simp
  | cons a l ih => cases i <;> simp [ih]

/-- Moving an outstanding evaluation to the history. -/
theorem PBook.take_ids {s : PState O} {j : ℕ} {job : EvalJob} {f : Fate} (h : PBook env pe s)
    (hj : s.evals[j]? = some job) :
    ((s.evals.eraseIdx j).map (fun x => x.id) ++ (s.hist ++ [(job.id, f)]).map (fun x => x.1)).Perm
      (List.range s.subs.length) := by
  rw [List.map_append]
  refine perm_move (a := s.evals.map (fun x : EvalJob => x.id)) ?_ h.ids
  simpa using (perm_take hj).map (fun x : EvalJob => x.id)

theorem PBook.take_len {s : PState O} {j : ℕ} {job : EvalJob} (hj : s.evals[j]? = some job) :
    (s.evals.eraseIdx j).length + 1 = s.evals.length := by
  have := (perm_take hj).length_eq
  simpa using this

theorem WF.endPass {a a' : Alg O} (w : WF env a) (h : endPass P a = .ok a') : WF env a' := by
  have hm := endPass_micros (env := env) h
  exact hm.inv (fun s t hs hm => hs.micro hm) w

theorem WF.log {a : Alg O} (w : WF env a) (v : ℚ) (gap : EVal) : WF env (updateLog a v gap) := by
  obtain ⟨g, st, e⟩ := updateLog_frame a v gap
  rw [e]
  exact ⟨w.curA, w.allA, w.le, w.val, w.noisy, w.err, w.pos⟩

theorem PTabs.endPass {c : Bool} {a a' : Alg O} (w : PTabs c env a) (h : endPass P a = .ok a') :
    PTabs c env a' := by
  obtain ⟨-, -, -, -, -, -, -, h1, h2, -, -, -, -, -, -, -, -, h3, -⟩ := endPass_ctl h
  exact w.of_tables h1 h2 h3

theorem PTabs.log {c : Bool} {a : Alg O} (w : PTabs c env a) (v : ℚ) (gap : EVal) :
    PTabs c env (updateLog a v gap) := by
  obtain ⟨g, st, e⟩ := updateLog_frame a v gap
  rw [e]
  exact w.of_tables rfl rfl rfl

theorem PBook.ctrl {s s' : PState O} (h : PBook env pe s) (hc : PCtrl pe s s') : PBook env pe s' := by
  constructor
  · rw [hc.cut]; exact h.wf.of_data hc.data
  · unfold PState.jobIds; rw [hc.evals, hc.hist, hc.subs]; exact h.ids
  · rw [hc.evals, hc.subs]; exact h.jobs
  · intro ha; rw [hc.tPos, hc.evals]; exact h.tpos (hc.active ha)
  · intro ha; rw [hc.tNoisy, hc.evals]; exact h.tnoisy (hc.active ha)
  · intro ha; rw [hc.tVal, hc.evals]; exact h.tval (hc.active ha)
  · rw [hc.evals, hc.searches, hc.left]; exact h.bound
  · intro hm
    rw [hc.evals, hc.searches, hc.left]
    rcases hc.model hm with h1 | h1
    · exact h.room h1
    · exact lt_of_lt_of_le h1 (le_max_left _ _)

theorem PBook.collect {s s' : PState O} {b j : ℕ} (h : PBook env pe s) (hp : s.pc = .evals b)
    (hc : collectJob P env pe s j = .ok s') : PBook env pe { s' with pc := .evals b } := by
  have hact : s.pc.Active := by rw [hp]; exact trivial
  have t1 := h.tpos hact
  have t2 := h.tnoisy hact
  have t3 := h.tval hact
  have hb := h.bound
  obtain ⟨job, d, hj, hd, hcase⟩ := collectJob_cases hc
  have hlen := PBook.take_len hj
  have hlt : j < s.evals.length := (List.getElem?_eq_some_iff.mp hj).1
  have hjobs : ∀ x ∈ s.evals.eraseIdx j, ∃ orig, s.subs[x.id]? = some (orig, x.noisy, x.tag) ∧
      (orig = env.toOrig x.pt ∨ (x.tag = .init ∧ orig = x.pt)) :=
    fun x hx => h.jobs x (List.mem_of_mem_eraseIdx hx)
  rcases hcase with ⟨_, tb, rfl⟩ | ⟨_, hn, _, a, ha, rfl⟩ |
    ⟨_, gap, a, a', rc, rb, hg, hda, _, _, _, ha, _, _, rfl⟩
  · constructor
    · exact h.wf
    · exact h.take_ids hj
    · exact hjobs
    · intro _; simp only [PState.fate, takeJob, PState.popTemp]; rw [t1, eraseIdx_map]
    · intro _; simp only [PState.fate, takeJob, PState.popTemp]; rw [t2, eraseIdx_map]
    · intro _
      simp only [PState.fate, takeJob, PState.popTemp]
      rw [List.length_eraseIdx, List.length_eraseIdx, t3]
    · simp only [PState.fate, takeJob, PState.popTemp]; omega
    · intro hm; cases hm
  · constructor
    · exact (h.wf.of_tables (t := { s.alg with evalcount := s.alg.evalcount + 1 }) rfl rfl
        rfl).endPass ha
    · have := perm_add (h.take_ids (f := .repeated) hj)
      simp only [PState.jobIds, collectRepeat, takeJob, PState.popTemp, PState.submitEval,
        PState.pushTemp, PState.fate, List.length_append, List.length_singleton]
      simpa using this
    · intro x hx
      simp only [collectRepeat, takeJob, PState.popTemp, PState.submitEval,
        PState.pushTemp, PState.fate, List.mem_append, List.mem_singleton] at hx ⊢
      rcases hx with hx | rfl
      · obtain ⟨orig, ho1, ho2⟩ := hjobs x hx
        refine ⟨orig, ?_, ho2⟩
        rw [List.getElem?_append_left (List.getElem?_eq_some_iff.mp ho1).1]
        exact ho1
      · exact ⟨env.toOrig job.pt, by simp, Or.inl rfl⟩
    · intro _
      simp only [collectRepeat, takeJob, PState.popTemp, PState.submitEval, PState.pushTemp,
        PState.fate]
      rw [t1, eraseIdx_map]; simp
    · intro _
      simp only [collectRepeat, takeJob, PState.popTemp, PState.submitEval, PState.pushTemp,
        PState.fate]
      rw [t2, eraseIdx_map]; simp
    · intro _
      simp only [collectRepeat, takeJob, PState.popTemp, PState.submitEval, PState.pushTemp,
        PState.fate, List.length_append, List.length_singleton]
      rw [List.length_eraseIdx, List.length_eraseIdx, t3]
    · simp only [collectRepeat, takeJob, PState.popTemp, PState.submitEval, PState.pushTemp,
        PState.fate, List.length_append, List.length_singleton]
      omega
    · intro hm; cases hm
  · constructor
    · have w := (h.wf.add (addJob_spec (pe := pe) s.alg job)).log (jobResult pe job).1 gap
      exact (w.of_data hda).endPass ha
    · exact h.take_ids hj
    · exact hjobs
    · intro _; simp only [PState.fate, takeJob, PState.popTemp]; rw [t1, eraseIdx_map]
    · intro _; simp only [PState.fate, takeJob, PState.popTemp]; rw [t2, eraseIdx_map]
    · intro _
      simp only [PState.fate, takeJob, PState.popTemp]
      rw [List.length_eraseIdx, List.length_eraseIdx, t3]
    · simp only [PState.fate, takeJob, PState.popTemp]; omega
    · intro hm; cases hm

theorem takeSearch_len {s : PState O} {j : ℕ} {job : SearchJob} (hj : s.searches[j]? = some job) :
    (s.searches.eraseIdx j).length + 1 = s.searches.length := by
  have hlt := (List.getElem?_eq_some_iff.mp hj).1
  rw [List.length_eraseIdx, if_pos hlt]; omega

theorem harvestDiscard_eq (s : PState O) (tag : Tag) :
    ∃ nc rc rb, (tag = .ref → rb = false) ∧ (tag ≠ .ref → rb = s.refBusy ∧ nc = s.alg.numCons) ∧
      harvestDiscard P s tag = { s with
        alg := { s.alg with numCons := nc
                            discarded := dequePush P.discWindow s.alg.discarded true
                            itercount := s.alg.itercount + 1 }
        refCount := rc, refBusy := rb } := by
  unfold harvestDiscard
  by_cases ht : tag = .ref
  · rw [if_pos ht]
    exact ⟨0, s.refCount + 1, false, fun _ => rfl, fun h => absurd ht h, rfl⟩
  · rw [if_neg ht]
    exact ⟨s.alg.numCons, s.refCount, s.refBusy, fun h => absurd h ht, fun _ => ⟨rfl, rfl⟩, rfl⟩

theorem WF.removed {a a' : Alg O} {res : SearchRes} (w : WF env a)
    (h : a' = a ∨ ∃ (i : ℕ) (p : Pt), res.ind ≠ none ∧ res.next = some p ∧
        a.cur.pos[i]? = some p ∧ removeNode a i a.nAtRestart = .ok a') : WF env a' := by
  rcases h with rfl | ⟨i, p, _, _, _, hr⟩
  · exact w
  · exact w.remove hr

theorem PTabs.removed {c : Bool} {a a' : Alg O} {res : SearchRes} (w : PTabs c env a)
    (h : a' = a ∨ ∃ (i : ℕ) (p : Pt), res.ind ≠ none ∧ res.next = some p ∧
        a.cur.pos[i]? = some p ∧ removeNode a i a.nAtRestart = .ok a') : PTabs c env a' := by
  refine ⟨?_, ?_, ?_, fun hc => (w.tail hc).removed h, fun hc => ?_⟩
  all_goals
    rcases h with rfl | ⟨i, p, _, _, _, hr⟩
  · exact w.curA
  · obtain ⟨h1, h2, rfl⟩ := removeNode_spec hr
    exact w.curA.eraseIdx i
  · exact w.allA
  · obtain ⟨h1, h2, rfl⟩ := removeNode_spec hr
    exact w.allA.eraseIdx _
  · exact w.le
  · obtain ⟨h1, h2, rfl⟩ := removeNode_spec hr
    simp only [Table.eraseIdx, List.length_eraseIdx, if_pos h2]; omega
  · exact w.errEq hc
  · exact (w.errEq hc).remove hr

theorem PBook.harvest {s s' : PState O} {j : ℕ} {res : SearchRes} (h : PBook env pe s)
    (hp : s.pc = .searches) (hc : harvestJob P env pe s j res = .ok s') :
    PBook env pe { s' with pc := .searches } := by
  have hact : s.pc.Active := by rw [hp]; exact trivial
  have t1 := h.tpos hact
  have t2 := h.tnoisy hact
  have t3 := h.tval hact
  have hb := h.bound
  obtain ⟨job, rd, a, tb, hj, ha, hcase⟩ := harvestJob_cases hc
  have hlen := takeSearch_len hj
  have w := h.wf.removed ha
  rcases hcase with rfl | ⟨p0, hp0, hu, ⟨b, v, hr, hre⟩ | ⟨hr, rfl⟩⟩
  · obtain ⟨nc, rc, rb, _, _, e⟩ := harvestDiscard_eq (P := P) (takeSearch s j rd a tb) job.tag
    rw [e]
    constructor
    · exact w.of_data rfl
    · exact h.ids
    · exact h.jobs
    · exact fun _ => t1
    · exact fun _ => t2
    · exact fun _ => t3
    · simp only [takeSearch]; omega
    · intro hm; cases hm
  · obtain ⟨a1, e, gap, a2, hadd, _, _, hg, he, rfl⟩ := harvestReuse_cases hre
    constructor
    · exact ((w.add hadd).log v gap).endPass he
    · exact h.ids
    · exact h.jobs
    · exact fun _ => t1
    · exact fun _ => t2
    · exact fun _ => t3
    · simp only [takeSearch]; omega
    · intro hm; cases hm
  · constructor
    · exact w.of_tables rfl rfl rfl
    · have := perm_add h.ids
      simp only [PState.jobIds, harvestSubmit, PState.submitEval, PState.pushTemp, takeSearch,
        List.length_append, List.length_singleton]
      simpa using this
    · intro x hx
      simp only [harvestSubmit, PState.submitEval, PState.pushTemp, takeSearch, List.mem_append,
        List.mem_singleton] at hx ⊢
      rcases hx with hx | rfl
      · obtain ⟨orig, ho1, ho2⟩ := h.jobs x hx
        refine ⟨orig, ?_, ho2⟩
        rw [List.getElem?_append_left (List.getElem?_eq_some_iff.mp ho1).1]
        exact ho1
      · exact ⟨_, by simp, Or.inl rfl⟩
    · intro _; simp [harvestSubmit, PState.submitEval, PState.pushTemp, takeSearch, t1]
    · intro _; simp [harvestSubmit, PState.submitEval, PState.pushTemp, takeSearch, t2]
    · intro _; simp [harvestSubmit, PState.submitEval, PState.pushTemp, takeSearch, t3]
    · simp only [harvestSubmit, PState.submitEval, PState.pushTemp, takeSearch, List.length_append,
        List.length_singleton]
      omega
    · intro hm; cases hm

/-- The tables are aligned before installation, though the index of the restart has moved. -/
theorem RestartParts.wf {s s' : PState O} {pts : List Pt} {noisy : Bool} {o : O}
    {done rest : List EvalJob} {prev u : Table} {calls : List Call} {a : Alg O} {m M : ℚ} {i : ℕ}
    (h : RestartParts P env pe s s' pts noisy o done rest prev u calls a m M i)
    {c : Bool} (w : PTabs c env s.alg) : WF env a ∧ ErrEq a := by
  have ht := (((initTable_aligned (pe := pe) (decide (s.alg.mode = .noisy)) done).append
    h.prevA).append h.uA)
  have ho := h.install
  obtain ⟨a1, a2, a3⟩ := w.allA
  obtain ⟨t1, t2, t3⟩ := ht
  have hn : ({ beginAlg s.alg o noisy pts.length with
      log := s.alg.log ++ calls
      evalcount := (beginAlg s.alg o noisy pts.length).evalcount + countAcc calls } :
      Alg O).nAtRestart = s.alg.all.pos.length := rfl
  have hall : ({ beginAlg s.alg o noisy pts.length with
      log := s.alg.log ++ calls
      evalcount := (beginAlg s.alg o noisy pts.length).evalcount + countAcc calls } :
      Alg O).all = s.alg.all := rfl
  have heq : ErrEq a := by
    unfold ErrEq
    rw [ho.all, ho.nAt, ho.cur, hn, hall]; simp [Table.append, ← a3]
  refine ⟨?_, heq⟩
  constructor
  · rw [ho.cur]; simp [Table.Aligned, t1, t2, t3]
  · rw [ho.all, hall]; exact w.allA.append ⟨t1, t2, t3⟩
  · rw [ho.all, ho.nAt, hn, hall]; simp [Table.append]
  · rw [ho.all, ho.nAt, ho.cur, hn, hall]; simp [Table.append, ← a1]
  · rw [ho.all, ho.nAt, ho.cur, hn, hall]; simp [Table.append, ← a2]
  · rw [heq]
    exact List.forall₂_same.mpr (fun e _ => Or.inl rfl)
  · rw [ho.all, ho.nAt, ho.cur, hn, hall]
    simp only [Table.append, List.drop_left]
    exact forall₂_map_self _ (fun a _ => Or.inl rfl)

theorem PBook.restart {s s' : PState O} {pc : PC} (h : PBook env pe s) (he : s.evals = [])
    (hs : s.searches = []) (hr : RestartPar P env pe s (.ok s'))
    (_hpc : pc = .model ∨ pc = .top ∨ ∃ e, pc = .raised e) (gap : EVal) :
    PBook env pe { s' with pc := pc, gap := gap } := by
  obtain ⟨pts, noisy, o, done, rest, prev, u, calls, a, m, M, i, hparts⟩ := restartPar_ok hr
  have w := hparts.wf h.wf
  have hperm := hparts.perm
  rw [hparts.eq]
  have hids := h.ids
  unfold PState.jobIds at hids
  rw [he] at hids
  simp only [List.map_nil, List.nil_append] at hids
  constructor
  · exact w.1.tabs w.2
  · simp only [PState.jobIds, PState.fates, List.map_append, List.map_map, Function.comp_def,
      List.length_append, List.length_map]
    have h1 := hperm.map (fun x : EvalJob => x.id)
    rw [initJobs_ids, List.map_append] at h1
    rw [List.range_add]
    have h2 : (List.range pts.length).map (fun x => s.subs.length + x) =
        List.range' s.subs.length pts.length := by
      rw [List.range'_eq_map_range]
    rw [h2]
    refine List.Perm.trans ?_ (hids.append h1)
    have : ∀ (x y z : List ℕ), (x ++ (y ++ z)).Perm (y ++ (z ++ x)) := by
      intro x y z
      rw [← List.append_assoc y z x]
      exact List.perm_append_comm
    exact this _ _ _
  · intro x hx
    have hx' : x ∈ initJobs noisy s.subs.length pts := hperm.mem_iff.mp (List.mem_append_right _ hx)
    obtain ⟨h1, h2, h3, h4⟩ := initJobs_get hx'
    refine ⟨x.pt, ?_, Or.inr ⟨h4, rfl⟩⟩
    simp only [PState.fates]
    rw [List.getElem?_append_right h1, List.getElem?_map, h2, h3, h4]
    rfl
  · exact fun _ => rfl
  · exact fun _ => rfl
  · intro _; simp [PState.fates]
  · simp only [PState.fates, hs, List.length_nil]
    omega
  · intro _; simp only [PState.fates, hs, List.length_nil]; omega

theorem PBook.submit {s : PState O} {a : Alg O} {rd rb noisy : Bool} {tag : Tag}
    (h : PBook env pe s) (hp : s.pc = .model) (hd : a.data = s.alg.data) :
    PBook env pe { ({ s with alg := a, rankDef := rd, refBusy := rb } : PState O).submitSearch
      noisy tag with pc := .top } := by
  have hact : s.pc.Active := by rw [hp]; exact trivial
  have hr := h.room hp
  constructor
  · exact h.wf.of_data hd
  · exact h.ids
  · exact h.jobs
  · exact fun _ => h.tpos hact
  · exact fun _ => h.tnoisy hact
  · exact fun _ => h.tval hact
  · simp only [PState.submitSearch, List.length_append, List.length_singleton]; omega
  · intro hm; cases hm

theorem PBook.close {s s' : PState O} {job : EvalJob} {todo : List EvalJob} (h : PBook env pe s)
    (he : s.evals = job :: todo) (hc : closeJob P env pe s job = .ok s') :
    PBook env pe { s' with pc := .closing todo } := by
  obtain ⟨_, _, a, gap, g, st, ha, _, rfl⟩ := closeJob_cases hc
  have hb := h.bound
  have hj : s.evals[0]? = some job := by rw [he]; rfl
  constructor
  · exact (h.wf.add ha).of_tables rfl rfl rfl
  · have := h.take_ids (f := .recorded) hj
    simp only [PState.jobIds, PState.fate]
    rw [he] at this
    rw [he]
    exact this
  · intro x hx; exact h.jobs x (List.mem_of_mem_tail hx)
  · intro ha; exact absurd ha (by simp [PC.Active])
  · intro ha; exact absurd ha (by simp [PC.Active])
  · intro ha; exact absurd ha (by simp [PC.Active])
  · simp only [PState.fate, List.length_tail]; omega
  · intro hm; cases hm

theorem PBook.fresh {s : PState O} {pc : PC} {rc : ℚ} {gap : EVal} (h : PBook env pe s)
    (he : s.evals = []) (hpc : pc = .top ∨ ∃ e, pc = .raised e) :
    PBook env pe { s.fresh with pc := pc, refCount := rc, gap := gap } := by
  refine ⟨h.wf, ?_, by simp [PState.fresh], by simp [PState.fresh], by simp [PState.fresh],
    by simp [PState.fresh], by simp [PState.fresh], ?_⟩
  · have := h.ids
    unfold PState.jobIds at this ⊢
    rw [he] at this
    exact this
  · rintro rfl
    rcases hpc with h | ⟨e, h⟩ <;> cases h

theorem PBook.ret {s : PState O} {t : ℚ} (h : PBook env pe s) :
    PBook env pe { s with alg := { s.alg with elapsed := t } } :=
  ⟨h.wf.of_tables rfl rfl rfl, h.ids, h.jobs, h.tpos, h.tnoisy, h.tval, h.bound, h.room⟩

theorem PBook.load {s : PState O} (h : PBook env pe s) : PBook env pe s.lose := by
  refine ⟨h.wf.of_tables rfl rfl rfl, ?_, by simp [PState.lose, PState.fresh],
      by simp [PState.lose, PState.fresh], by simp [PState.lose, PState.fresh],
      by simp [PState.lose, PState.fresh], by simp [PState.lose, PState.fresh],
      by simp [PState.lose, PState.fresh]⟩
  have := h.ids
  unfold PState.jobIds at this ⊢
  simp only [PState.lose, PState.fresh, List.map_nil, List.nil_append, List.map_append, List.map_map,
    Function.comp_def]
  exact List.perm_append_comm.trans this

theorem PBook.cut {s t : PState O} (h : PBook env pe s) (he : s.evals = [])
    (hc : RestartParCut P env pe s t) : PBook env pe t.lose := by
  obtain ⟨pts, noisy, o, rfl, -, -⟩ := hc.frame
  refine ⟨⟨h.wf.curA, h.wf.allA, le_rfl, by simp [PState.lose, PState.fresh], by simp [PState.lose, PState.fresh]⟩, ?_,
      by simp [PState.lose, PState.fresh],
      by simp [PState.lose, PState.fresh], by simp [PState.lose, PState.fresh],
      by simp [PState.lose, PState.fresh], by simp [PState.lose, PState.fresh],
      by simp [PState.lose, PState.fresh]⟩
  have hids := h.ids
  unfold PState.jobIds at hids ⊢
  rw [he] at hids
  simp only [PState.lose, PState.fresh, List.map_nil, List.nil_append, List.map_append, List.map_map,
    Function.comp_def, List.length_append, List.length_map] at hids ⊢
  rw [List.range_add]
  have h2 : (List.range pts.length).map (fun x => s.subs.length + x) =
      (initJobs noisy s.subs.length pts).map (fun x => x.id) := by
    rw [initJobs_ids, List.range'_eq_map_range]
  rw [h2]
  exact hids.append_right _

theorem PReach.book {o : O} {c : PCtl} {s : PState O} (h : PReach P env pe o c s) :
    PBook env pe s := by
  refine h.induct (I := PBook env pe) ?_ (fun _ _ h hc => h.ctrl hc)
    (fun _ _ _ _ h hp hc => h.collect hp hc) (fun _ _ _ _ h hp _ hc => h.harvest hp hc)
    (fun _ _ _ h he hs hr hpc gap => h.restart he hs hr hpc gap)
    (fun _ _ _ _ _ _ h hp hd _ _ => h.submit hp hd) (fun _ _ _ _ h _ he hc => h.close he hc)
    (fun _ _ _ _ h he hpc => h.fresh he hpc) (fun _ _ h _ => h.ret) (fun _ h _ => h.load)
    (fun _ _ h he _ hc => h.cut he hc)
  exact ⟨(WF.init o).tabs (by simp [ErrEq, Alg.init]), by simp [PState.jobIds], by simp, by simp, by simp, by simp, by simp, by simp⟩

end Rbfopt
