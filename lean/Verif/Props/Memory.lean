import Verif.Lemmas.Memory
import Verif.Spec.Memory
import Verif.Model.Serial

/-!
# C91: arrays given to user code
-/

namespace Rbfopt

/-- Which rows user code can reach. -/
structure MInv (I : Internal) (m : Mem) : Prop where
  node : ∀ r ∈ m.nodePos, r < m.heap.length ∧ r ∉ m.args ∧ r ∉ m.results ∧ r ∉ m.allPos
  init : ∀ r ∈ m.initPos, r < m.heap.length ∧ r ∉ m.args ∧ r ∉ m.results ∧ r ∉ m.allPos
  all : ∀ r ∈ m.allPos, r < m.heap.length ∧ r ∉ m.args ∧ (I.expansion ≠ [] → r ∉ m.results)
  args : ∀ r ∈ m.args, r < m.heap.length
  res : ∀ r ∈ m.results, r < m.heap.length
  told : m.told.length = m.allPos.length

namespace MInv

variable {I : Internal} {U : UserCode} {m m' : Mem}

theorem init_state (given : List Pt) : MInv I (memInit given) := by
  refine ⟨?_, ?_, ?_, ?_, ?_, rfl⟩
  · exact fun r hr => absurd hr List.not_mem_nil
  · intro r hr
    have h := Rows.mem_fresh hr
    exact ⟨by have := h.2; simpa [memInit] using this, List.not_mem_nil, List.not_mem_nil, List.not_mem_nil⟩
  · exact fun r hr => absurd hr List.not_mem_nil
  · exact fun r hr => absurd hr List.not_mem_nil
  · exact fun r hr => absurd hr List.not_mem_nil

theorem node_not_writable (h : MInv I m) {r : ℕ} (hr : r ∈ m.nodePos) : r ∉ m.writable U := by
  intro hw
  rcases mem_writable.1 hw with ⟨_, hm⟩ | ⟨_, hm⟩
  · exact (h.node r hr).2.1 hm
  · exact (h.node r hr).2.2.1 hm

theorem init_not_writable (h : MInv I m) {r : ℕ} (hr : r ∈ m.initPos) : r ∉ m.writable U := by
  intro hw
  rcases mem_writable.1 hw with ⟨_, hm⟩ | ⟨_, hm⟩
  · exact (h.init r hr).2.1 hm
  · exact (h.init r hr).2.2.1 hm

theorem all_not_writable (h : MInv I m) (hR : U.resWrites = true → I.expansion ≠ []) {r : ℕ}
    (hr : r ∈ m.allPos) : r ∉ m.writable U := by
  intro hw
  rcases mem_writable.1 hw with ⟨_, hm⟩ | ⟨hu, hm⟩
  · exact (h.all r hr).2.1 hm
  · exact (h.all r hr).2.2 (hR hu) hm

theorem fresh_not_writable (h : MInv I m) {r : ℕ} (hr : m.heap.length ≤ r) :
    r ∉ m.writable U := by
  intro hw
  rcases mem_writable.1 hw with ⟨_, hm⟩ | ⟨_, hm⟩
  · exact absurd (h.args r hm) (not_lt.2 hr)
  · exact absurd (h.res r hm) (not_lt.2 hr)

theorem grown (h : MInv I m) (g : Grown m m') : MInv I m' := by
  refine ⟨?_, ?_, ?_, ?_, ?_, ?_⟩
  · intro r hr; rw [g.node] at hr
    obtain ⟨a, b⟩ := h.node r hr
    rw [g.args, g.res, g.all]; exact ⟨a.trans_le g.grow, b⟩
  · intro r hr; rw [g.inits] at hr
    obtain ⟨a, b⟩ := h.init r hr
    rw [g.args, g.res, g.all]; exact ⟨a.trans_le g.grow, b⟩
  · intro r hr; rw [g.all] at hr
    obtain ⟨a, b⟩ := h.all r hr
    rw [g.args, g.res]; exact ⟨a.trans_le g.grow, b⟩
  · intro r hr; rw [g.args] at hr; exact (h.args r hr).trans_le g.grow
  · intro r hr; rw [g.res] at hr; exact (h.res r hr).trans_le g.grow
  · rw [g.told, g.all, h.told]

/-- Rows of the algorithm handed over must not belong to its arrays. -/
theorem handed (h : MInv I m) {cp : Prop} {S : List ℕ} (k : Handed cp U S m m')
    (hS : ∀ r ∈ S, r < m.heap.length ∧ r ∉ m.nodePos ∧ r ∉ m.allPos ∧ r ∉ m.initPos) :
    MInv I m' := by
  have hargs : ∀ r, r < m.heap.length → r ∉ m.args → r ∉ S → r ∉ m'.args := by
    intro r hr h1 h2 h3
    rcases k.args r h3 with h' | ⟨h', _⟩ | h'
    · exact h1 h'
    · exact h2 h'
    · exact absurd h'.1 (not_le.2 hr)
  refine ⟨?_, ?_, ?_, ?_, ?_, ?_⟩
  · intro r hr; rw [k.node] at hr
    obtain ⟨a, b, c, d⟩ := h.node r hr
    rw [k.res, k.all]
    exact ⟨a.trans_le k.grow, hargs r a b (fun hs => (hS r hs).2.1 hr), c, d⟩
  · intro r hr; rw [k.inits] at hr
    obtain ⟨a, b, c, d⟩ := h.init r hr
    rw [k.res, k.all]
    exact ⟨a.trans_le k.grow, hargs r a b (fun hs => (hS r hs).2.2.2 hr), c, d⟩
  · intro r hr; rw [k.all] at hr
    obtain ⟨a, b, c⟩ := h.all r hr
    rw [k.res]
    exact ⟨a.trans_le k.grow, hargs r a b (fun hs => (hS r hs).2.2.1 hr), c⟩
  · intro r hr
    rcases k.args r hr with h' | ⟨h', _⟩ | h'
    · exact (h.args r h').trans_le k.grow
    · exact (hS r h').1.trans_le k.grow
    · exact h'.2
  · intro r hr; rw [k.res] at hr; exact (h.res r hr).trans_le k.grow
  · rw [k.told, k.all, h.told]

/-- New arrays are out of reach. -/
theorem renewed {h1 h2 : Rows} {ns rs : List ℕ} {told : List Pt} (h : MInv I m)
    (g1 : m.heap.length ≤ h1.length) (g2 : h1.length ≤ h2.length)
    (hn : ∀ r ∈ ns, m.heap.length ≤ r ∧ r < h2.length)
    (hr : ∀ r ∈ rs, m.heap.length ≤ r ∧ r < h2.length)
    (hd : ∀ r ∈ ns, r ∉ rs) (ht : told.length = rs.length) :
    MInv I { m with heap := h2, nodePos := ns, allPos := rs, told := told } := by
  have ha : ∀ r, m.heap.length ≤ r → r ∉ m.args := fun r hr hm =>
    absurd (h.args r hm) (not_lt.2 hr)
  have hs : ∀ r, m.heap.length ≤ r → r ∉ m.results := fun r hr hm =>
    absurd (h.res r hm) (not_lt.2 hr)
  refine ⟨?_, ?_, ?_, ?_, ?_, ht⟩
  · intro r hm
    exact ⟨(hn r hm).2, ha r (hn r hm).1, hs r (hn r hm).1, hd r hm⟩
  · intro r hm
    obtain ⟨a, b, c, d⟩ := h.init r hm
    exact ⟨a.trans_le (g1.trans g2), b, c, fun hx => absurd a (not_lt.2 (hr r hx).1)⟩
  · intro r hm
    exact ⟨(hr r hm).2, ha r (hr r hm).1, fun _ => hs r (hr r hm).1⟩
  · intro r hm; exact (h.args r hm).trans_le (g1.trans g2)
  · intro r hm; exact (h.res r hm).trans_le (g1.trans g2)

theorem add (h : MInv I m) (x y : ℕ) (t : Pt) : MInv I (memAdd m x y t) := by
  unfold memAdd
  refine h.renewed (h1 := m.heap.alloc (m.nodes ++ [m.heap.read x])) ?_ ?_ ?_ ?_ ?_ ?_
  · rw [Rows.length_alloc]; omega
  · simp only [Rows.length_alloc]; omega
  · intro r hr
    have := Rows.mem_fresh hr
    rw [Rows.length_alloc, Rows.length_alloc]; omega
  · intro r hr
    have := Rows.mem_fresh hr
    rw [Rows.length_alloc] at this
    rw [Rows.length_alloc, Rows.length_alloc]; omega
  · intro r hr hr'
    have h1 := Rows.mem_fresh hr
    have h2 := Rows.mem_fresh hr'
    rw [Rows.length_alloc] at h2; omega
  · rw [Rows.length_fresh]
    simp [Mem.records, h.told]

theorem remove (h : MInv I m) (i k : ℕ) : MInv I (memRemove m i k) := by
  unfold memRemove
  refine h.renewed (h1 := m.heap.alloc (m.nodes.eraseIdx i)) ?_ ?_ ?_ ?_ ?_ ?_
  · rw [Rows.length_alloc]; omega
  · simp only [Rows.length_alloc]; omega
  · intro r hr
    have := Rows.mem_fresh hr
    rw [Rows.length_alloc, Rows.length_alloc]; omega
  · intro r hr
    have := Rows.mem_fresh hr
    rw [Rows.length_alloc] at this
    rw [Rows.length_alloc, Rows.length_alloc]; omega
  · intro r hr hr'
    have h1 := Rows.mem_fresh hr
    have h2 := Rows.mem_fresh hr'
    rw [Rows.length_alloc] at h2; omega
  · rw [Rows.length_fresh, List.length_eraseIdx, List.length_eraseIdx]
    simp [Mem.records, h.told]

theorem install (h : MInv I m) (tr : Pt → Pt) (np : List ℕ) (t : List Pt)
    (ht : t.length = np.length) : MInv I (memInstall tr m np t) := by
  unfold memInstall
  refine h.renewed (h1 := m.heap.alloc (m.records ++ np.map m.heap.read)) ?_ ?_ ?_ ?_ ?_ ?_
  · rw [Rows.length_alloc]; omega
  · simp only [Rows.length_alloc]; omega
  · intro r hr
    have := Rows.mem_fresh hr
    rw [Rows.length_alloc] at this
    rw [Rows.length_alloc, Rows.length_alloc]; omega
  · intro r hr
    have := Rows.mem_fresh hr
    rw [Rows.length_alloc, Rows.length_alloc]; omega
  · intro r hr hr'
    have h1 := Rows.mem_fresh hr
    have h2 := Rows.mem_fresh hr'
    rw [Rows.length_alloc] at h1; omega
  · rw [Rows.length_fresh]
    simp [Mem.records, h.told, ht]

end MInv

/-! ### Contents across calls of user code -/

namespace Handed

variable {I : Internal} {U : UserCode} {m m' : Mem} {cp : Prop} {S : List ℕ}

theorem nodes_eq (k : Handed cp U S m m') (h : MInv I m) (hS : ∀ r ∈ S, r ∉ m.nodePos) :
    m'.nodes = m.nodes := by
  unfold Mem.nodes
  rw [k.node]
  exact List.map_congr_left (fun r hr => k.keep r (h.node r hr).1 (h.node_not_writable hr)
    (fun hs => absurd hr (hS r hs)))

theorem inits_eq (k : Handed cp U S m m') (h : MInv I m) (hS : ∀ r ∈ S, r ∉ m.initPos) :
    m'.inits = m.inits := by
  unfold Mem.inits
  rw [k.inits]
  exact List.map_congr_left (fun r hr => k.keep r (h.init r hr).1 (h.init_not_writable hr)
    (fun hs => absurd hr (hS r hs)))

theorem records_eq (k : Handed cp U S m m') (h : MInv I m)
    (hR : U.resWrites = true → I.expansion ≠ []) (hS : ∀ r ∈ S, r ∉ m.allPos) :
    m'.records = m.records := by
  unfold Mem.records
  rw [k.all]
  exact List.map_congr_left (fun r hr => k.keep r (h.all r hr).1 (h.all_not_writable hR hr)
    (fun hs => absurd hr (hS r hs)))

end Handed

theorem Grown.points_eq {I : Internal} {m m' : Mem} (g : Grown m m') (h : MInv I m) :
    m'.points = m.points := by
  have k : Handed True ⟨false, false⟩ [] m m' := g.handed _ _ _
  unfold Mem.points
  rw [k.nodes_eq h (fun r hr => absurd hr List.not_mem_nil),
    k.inits_eq h (fun r hr => absurd hr List.not_mem_nil),
    k.records_eq h (fun hr => by cases hr) (fun r hr => absurd hr List.not_mem_nil)]

theorem Grown.records_eq {I : Internal} {m m' : Mem} (g : Grown m m') (h : MInv I m) :
    m'.records = m.records := congrArg Points.records (g.points_eq h)

theorem Grown.inits_eq {I : Internal} {m m' : Mem} (g : Grown m m') (h : MInv I m) :
    m'.inits = m.inits := congrArg Points.inits (g.points_eq h)

/-- The evaluation of the rows of a new array. -/
structure Sampled (I : Internal) (U : UserCode) (X ts : List Pt) (m m1 : Mem) : Prop where
  inv : MInv I m1
  nodes : m1.nodes = m.nodes
  inits : m1.inits = m.inits
  records : (U.resWrites = true → I.expansion ≠ []) → m1.records = m.records
  told : m1.told = m.told
  allPos : m1.allPos = m.allPos
  initPos : m1.initPos = m.initPos
  res : m1.results = m.results
  len : ts.length = X.length
  grow : m.heap.length + X.length ≤ m1.heap.length
  exact : (U.argWrites = true → I.copies) → ts = X ∧ (m.heap.fresh X).map m1.heap.read = X
  safe : (U.argWrites = true → I.copies) → ∀ x ∈ m.heap.fresh X, x ∉ m1.writable U
  keep : ∀ x, x < m.heap.length → x ∉ m.writable U → m1.heap.read x = m.heap.read x

theorem EvaluatesAll.sampled {I : Internal} {U : UserCode} {m m1 : Mem} {X ts : List Pt}
    (h : MInv I m)
    (he : EvaluatesAll I U { m with heap := m.heap.alloc X } (m.heap.fresh X) ts m1) :
    Sampled I U X ts m m1 := by
  have g := Grown.alloc m X
  have h0 := h.grown g
  have hlt : ∀ r ∈ m.heap.fresh X, r < (m.heap.alloc X).length := fun r hr => by
    rw [Rows.length_alloc]; exact (Rows.mem_fresh hr).2
  obtain ⟨k, hl, hv⟩ := he.handed hlt
  have hge : ∀ r ∈ m.heap.fresh X, m.heap.length ≤ r := fun r hr => (Rows.mem_fresh hr).1
  have hN : ∀ r ∈ m.heap.fresh X, r ∉ m.nodePos := fun r hr hm =>
    absurd (h.node r hm).1 (not_lt.2 (hge r hr))
  have hA : ∀ r ∈ m.heap.fresh X, r ∉ m.allPos := fun r hr hm =>
    absurd (h.all r hm).1 (not_lt.2 (hge r hr))
  have hI : ∀ r ∈ m.heap.fresh X, r ∉ m.initPos := fun r hr hm =>
    absurd (h.init r hm).1 (not_lt.2 (hge r hr))
  have hw : ∀ r ∈ m.heap.fresh X, r ∉ ({ m with heap := m.heap.alloc X } : Mem).writable U := by
    intro r hr
    rw [g.writable]
    exact h.fresh_not_writable (hge r hr)
  have pe := g.points_eq h
  refine ⟨h0.handed k (fun r hr => ⟨hlt r hr, hN r hr, hA r hr, hI r hr⟩), ?_, ?_, ?_, k.told,
    k.all, k.inits, k.res, ?_, ?_, ?_, ?_, ?_⟩
  · exact (k.nodes_eq h0 hN).trans (congrArg Points.nodes pe)
  · exact (k.inits_eq h0 hI).trans (congrArg Points.inits pe)
  · exact fun hR => (k.records_eq h0 hR hA).trans (congrArg Points.records pe)
  · rw [hl, Rows.length_fresh]
  · have := k.grow
    rw [Rows.length_alloc] at this; exact this
  · intro hcp
    refine ⟨(hv hcp hw).trans (Rows.map_read_fresh _ _), ?_⟩
    refine Eq.trans (List.map_congr_left (fun r hr => ?_)) (Rows.map_read_fresh m.heap X)
    refine k.keep r (hlt r hr) (hw r hr) (fun _ hc => ?_)
    by_contra hne
    exact hc (hcp (by simpa using hne))
  · intro hcp x hx hxw
    rcases mem_writable.1 hxw with ⟨ha, hm⟩ | ⟨ha, hm⟩
    · rcases k.args x hm with h' | ⟨_, hc⟩ | h'
      · exact absurd (h.args x h') (not_lt.2 (hge x hx))
      · exact hc (hcp ha)
      · exact absurd (hlt x hx) (not_lt.2 h'.1)
    · rw [k.res] at hm
      exact absurd (h.res x hm) (not_lt.2 (hge x hx))
  · intro x hx hxw
    rw [k.keep x (hx.trans_le g.grow) (by rw [g.writable]; exact hxw)
      (fun hs => absurd hx (not_lt.2 (hge x hs)))]
    exact g.keep x hx

theorem records_getD {m : Mem} {j : ℕ} (hj : j < m.allPos.length) :
    m.heap.read (m.allPos.getD j 0) = m.records.getD j [] := by
  unfold Mem.records
  simp [List.getD_eq_getElem?_getD, hj]

theorem inits_getD {m : Mem} {j : ℕ} (hj : j < m.initPos.length) :
    m.heap.read (m.initPos.getD j 0) = m.inits.getD j [] := by
  unfold Mem.inits
  simp [List.getD_eq_getElem?_getD, hj]

theorem memReuse_length (m : Mem) (np : List ℕ) (js : List ℕ) :
    (memReuse m np js).2.length = np.length + js.length := by
  have := congrArg List.length (memReuse_read m np js)
  simpa using this

theorem memStack_length (m : Mem) (np us : List ℕ) :
    (memStack m np us).2.length = np.length + us.length := by
  have := congrArg List.length (memStack_read m np us)
  simpa using this

theorem memSelect_length (m : Mem) (sel : List ℕ) :
    (memSelect m sel).2.length = sel.length := by
  have := congrArg List.length (memSelect_read m sel)
  simpa using this

/-- The rows handed over in one evaluation of a new point. -/
theorem Evaluates.point {I : Internal} {U : UserCode} {m m1 : Mem} {p q t : Pt}
    (h : MInv I m)
    (he : Evaluates I U { m with heap := m.heap.alloc [p, q] } (m.heap.length + 1) t m1) :
    MInv I m1 ∧ t = q ∧ m1.nodes = m.nodes ∧ m1.inits = m.inits ∧ m1.told = m.told ∧
      m1.heap.read m.heap.length = p ∧
      ((U.resWrites = true → I.expansion ≠ []) → m1.records = m.records) ∧
      m.heap.length + 2 ≤ m1.heap.length ∧
      m1.allPos = m.allPos ∧ m1.nodePos = m.nodePos ∧ m1.initPos = m.initPos ∧
      m.heap.length ∉ m1.writable U ∧
      ((U.argWrites = true → I.copies) → m1.heap.read (m.heap.length + 1) = q ∧
        m.heap.length + 1 ∉ m1.writable U) := by
  have g := Grown.alloc m [p, q]
  have h0 := h.grown g
  obtain ⟨k, ht⟩ := he.handed
  have e0 : (m.heap.alloc [p, q]).read m.heap.length = p := by
    unfold Rows.alloc Rows.read; simp [List.getD_eq_getElem?_getD]
  have e1 : (m.heap.alloc [p, q]).read (m.heap.length + 1) = q := by
    unfold Rows.alloc Rows.read; simp [List.getD_eq_getElem?_getD]
  have hlen : (m.heap.alloc [p, q]).length = m.heap.length + 2 := by
    rw [Rows.length_alloc]; rfl
  have hw : ∀ r, m.heap.length ≤ r →
      r ∉ ({ m with heap := m.heap.alloc [p, q] } : Mem).writable U := by
    intro r hr
    rw [g.writable]
    exact h.fresh_not_writable hr
  have hN : ∀ r ∈ [m.heap.length + 1], r ∉ m.nodePos := fun r hr hm => by
    have := (h.node r hm).1; simp at hr; omega
  have hA : ∀ r ∈ [m.heap.length + 1], r ∉ m.allPos := fun r hr hm => by
    have := (h.all r hm).1; simp at hr; omega
  have hI : ∀ r ∈ [m.heap.length + 1], r ∉ m.initPos := fun r hr hm => by
    have := (h.init r hm).1; simp at hr; omega
  have pe := g.points_eq h
  have hw1 : ∀ r, m.heap.length ≤ r → r < m.heap.length + 2 → (r ∈ [m.heap.length + 1] →
      ¬ I.copies → U.argWrites = false) → r ∉ m1.writable U := by
    intro r h1 h2 h3 hr
    rcases mem_writable.1 hr with ⟨ha, hm⟩ | ⟨ha, hm⟩
    · rcases k.args r hm with h' | ⟨h', hc⟩ | h'
      · have := h.args r h'; omega
      · rw [h3 h' hc] at ha; cases ha
      · have := h'.1
        rw [hlen] at this; omega
    · rw [k.res] at hm
      have := h.res r hm; omega
  have hcpf : (U.argWrites = true → I.copies) → ¬ I.copies → U.argWrites = false := by
    intro hcp hc
    by_contra hne
    exact hc (hcp (by simpa using hne))
  refine ⟨h0.handed k (fun r hr => ⟨?_, hN r hr, hA r hr, hI r hr⟩), ht.trans e1,
    (k.nodes_eq h0 hN).trans (congrArg Points.nodes pe),
    (k.inits_eq h0 hI).trans (congrArg Points.inits pe), k.told, ?_,
    fun hR => (k.records_eq h0 hR hA).trans (congrArg Points.records pe), ?_, k.all, k.node,
    k.inits, hw1 _ (le_refl _) (by omega) (fun hs => by simp at hs), ?_⟩
  · simp at hr
    show r < (m.heap.alloc [p, q]).length
    rw [hlen]; omega
  · rw [k.keep m.heap.length (by show _ < (m.heap.alloc [p, q]).length; rw [hlen]; omega)
      (hw _ (le_refl _)) (fun hs => by simp at hs)]
    exact e0
  · have := k.grow
    rw [hlen] at this; exact this
  · intro hcp
    refine ⟨?_, hw1 _ (by omega) (by omega) (fun _ => hcpf hcp)⟩
    rw [k.keep (m.heap.length + 1)
      (by show _ < (m.heap.alloc [p, q]).length; rw [hlen]; omega) (hw _ (by omega))
      (fun _ => hcpf hcp)]
    exact e1

/-- A second evaluation of the same row. -/
theorem Evaluates.again {I : Internal} {U : UserCode} {m m1 : Mem} {r : ℕ} {t : Pt}
    (h : MInv I m) (hr : r < m.heap.length) (hN : r ∉ m.nodePos) (hA : r ∉ m.allPos)
    (hI : r ∉ m.initPos) (he : Evaluates I U m r t m1) :
    MInv I m1 ∧ t = m.heap.read r ∧ m1.nodes = m.nodes ∧ m1.inits = m.inits ∧
      m1.told = m.told ∧
      (∀ x, x < m.heap.length → x ≠ r → x ∉ m.writable U → m1.heap.read x = m.heap.read x) ∧
      ((U.resWrites = true → I.expansion ≠ []) → m1.records = m.records) ∧
      ((U.argWrites = true → I.copies) → r ∉ m.writable U →
        m1.heap.read r = m.heap.read r) := by
  obtain ⟨k, ht⟩ := he.handed
  refine ⟨h.handed k (fun x hx => ?_), ht, k.nodes_eq h ?_, k.inits_eq h ?_, k.told, ?_,
    fun hR => k.records_eq h hR ?_, ?_⟩
  · obtain rfl : x = r := by simpa using hx
    exact ⟨hr, hN, hA, hI⟩
  · intro x hx; obtain rfl : x = r := by simpa using hx
    exact hN
  · intro x hx; obtain rfl : x = r := by simpa using hx
    exact hI
  · intro x hx hne hw
    exact k.keep x hx hw (fun hs => absurd (by simpa using hs) hne)
  · intro x hx; obtain rfl : x = r := by simpa using hx
    exact hA
  · intro hcp hw
    refine k.keep r hr hw (fun _ hc => ?_)
    by_contra hne
    exact hc (hcp (by simpa using hne))


/-! ### One step -/

/-- Records of the middle part of a restart: sample and reused records. -/
theorem Sampled.reuse {I : Internal} {U : UserCode} {X ts : List Pt} {m m1 : Mem} {js : List ℕ}
    (k : Sampled I U X ts m m1) :
    MInv I (memReuse m1 (m.heap.fresh X) js).1 ∧
      (∀ r ∈ (memReuse m1 (m.heap.fresh X) js).2,
        r < (memReuse m1 (m.heap.fresh X) js).1.heap.length) ∧
      ((U.argWrites = true → I.copies) → ∀ r ∈ (memReuse m1 (m.heap.fresh X) js).2,
        r ∉ (memReuse m1 (m.heap.fresh X) js).1.writable U) ∧
      ((U.argWrites = true → I.copies) → (U.resWrites = true → I.expansion ≠ []) →
        (∀ j ∈ js, j < m.allPos.length) →
        (memReuse m1 (m.heap.fresh X) js).2.map (memReuse m1 (m.heap.fresh X) js).1.heap.read =
          X ++ js.map (fun j => m.records.getD j [])) := by
  have g := memReuse_grown m1 (m.heap.fresh X) js
  refine ⟨k.inv.grown g, memReuse_lt js ?_, ?_, ?_⟩
  · exact fun r hr => (Rows.mem_fresh hr).2.trans_le k.grow
  · intro hcp r hr
    rw [g.writable]
    rcases memReuse_mem r hr with h | h
    · exact k.safe hcp r h
    · exact k.inv.fresh_not_writable h
  · intro hcp hR hj
    rw [memReuse_read, (k.exact hcp).2]
    congr 1
    refine List.map_congr_left (fun j hm => ?_)
    rw [records_getD (by rw [k.allPos]; exact hj j hm), k.records hR]

/-- Every step keeps the invariant, whatever user code does. -/
theorem MemStep.inv {I : Internal} {U : UserCode} {tr : Pt → Pt} {par : Bool} {m m' : Mem}
    (hs : MemStep I U tr par m m') (h : MInv I m) : MInv I m' := by
  cases hs with
  | evaluated p q t m1 _ he => exact (he.point h).1.add _ _ _
  | evaluatedTwice p q t t' m1 m2 _ he he' =>
    obtain ⟨i1, _, _, _, _, _, _, hl, e1, e2, e3, _⟩ := he.point h
    refine (he'.again i1 (by omega) ?_ ?_ ?_).1.add _ _ _
    · rw [e2]; exact fun hm => by have := (h.node _ hm).1; omega
    · rw [e1]; exact fun hm => by have := (h.all _ hm).1; omega
    · rw [e3]; exact fun hm => by have := (h.init _ hm).1; omega
  | collected p q _ => exact (h.grown (Grown.alloc m [p, q])).add _ _ _
  | restarted X ts js m1 _ hj he =>
    have k := he.sampled h
    refine k.reuse.1.install _ _ _ ?_
    rw [memReuse_length, Rows.length_fresh, List.length_append, List.length_map, k.len]
  | restartedUser X ts us js sel m1 m2 _ hj hsel he hu =>
    have k := he.sampled h
    have k2 := hu.sampled k.reuse.1
    refine (k2.inv.grown (memStack_grown _ _ _)).install _ _ _ ?_
    rw [memStack_length, memReuse_length, memSelect_length, Rows.length_fresh]
    have := k2.len
    simp only [List.length_append, List.length_map] at this ⊢
    rw [k.len, this]
  | restartedGiven X ts js sel m1 _ hj hsel he =>
    have k := he.sampled h
    refine ((k.reuse.1.grown (memSelect_grown _ _)).grown (memStack_grown _ _ _)).install _ _ _ ?_
    rw [memStack_length, memReuse_length, memSelect_length, Rows.length_fresh]
    simp only [List.length_append, List.length_map, k.len]
  | restartedPar X js sel _ hj hsel =>
    have i1 := h.grown (Grown.alloc m X)
    refine (((i1.grown (memReuse_grown _ _ _)).grown (memSelect_grown _ _)).grown
      (memStack_grown _ _ _)).install _ _ _ ?_
    rw [memStack_length, memReuse_length, memSelect_length, Rows.length_fresh]
    simp only [List.length_append, List.length_map]
  | reused p q j hj => exact (h.grown (Grown.alloc m [p, q])).add _ _ _
  | removed i k hi => exact h.remove _ _
  | returned i hi =>
    have hmem : m.allPos.getD i 0 ∈ m.allPos := by
      rw [List.getD_eq_getElem?_getD, List.getElem?_eq_getElem hi]
      exact List.getElem_mem hi
    split
    · rename_i hx
      have h1 := h.grown (Grown.alloc m [returnedPt I (m.heap.read (m.allPos.getD i 0))])
      have hne : ∀ r, r < m.heap.length → r ∉ m.results → r ∉ m.heap.length :: m.results := by
        intro r h2 h3 h4
        rcases List.mem_cons.1 h4 with rfl | h4
        · omega
        · exact h3 h4
      refine ⟨?_, ?_, ?_, h1.args, ?_, h.told⟩
      · exact fun r hr => ⟨(h1.node r hr).1, (h.node r hr).2.1,
          hne r (h.node r hr).1 (h.node r hr).2.2.1, (h.node r hr).2.2.2⟩
      · exact fun r hr => ⟨(h1.init r hr).1, (h.init r hr).2.1,
          hne r (h.init r hr).1 (h.init r hr).2.2.1, (h.init r hr).2.2.2⟩
      · exact fun r hr => ⟨(h1.all r hr).1, (h.all r hr).2.1,
          fun hx => hne r (h.all r hr).1 ((h.all r hr).2.2 hx)⟩
      · intro r hr
        rcases List.mem_cons.1 hr with rfl | hr
        · show m.heap.length < (m.heap.alloc _).length
          rw [Rows.length_alloc]; simp
        · exact h1.res r hr
    · rename_i hx
      have hne : ∀ r, r ∉ m.allPos → r ∉ m.results → r ∉ m.allPos.getD i 0 :: m.results := by
        intro r h2 h3 h4
        rcases List.mem_cons.1 h4 with rfl | h4
        · exact h2 hmem
        · exact h3 h4
      refine ⟨?_, ?_, ?_, h.args, ?_, h.told⟩
      · exact fun r hr => ⟨(h.node r hr).1, (h.node r hr).2.1,
          hne r (h.node r hr).2.2.2 (h.node r hr).2.2.1, (h.node r hr).2.2.2⟩
      · exact fun r hr => ⟨(h.init r hr).1, (h.init r hr).2.1,
          hne r (h.init r hr).2.2.2 (h.init r hr).2.2.1, (h.init r hr).2.2.2⟩
      · exact fun r hr => ⟨(h.all r hr).1, (h.all r hr).2.1, fun hy => absurd hy hx⟩
      · intro r hr
        rcases List.mem_cons.1 hr with rfl | hr
        · exact (h.all _ hmem).1
        · exact h.res r hr
  | user h' hw =>
    have hl : h'.length = m.heap.length := hw.1
    refine ⟨?_, ?_, ?_, ?_, ?_, h.told⟩
    · exact fun r hr => ⟨by rw [hl]; exact (h.node r hr).1, (h.node r hr).2⟩
    · exact fun r hr => ⟨by rw [hl]; exact (h.init r hr).1, (h.init r hr).2⟩
    · exact fun r hr => ⟨by rw [hl]; exact (h.all r hr).1, (h.all r hr).2⟩
    · exact fun r hr => by rw [hl]; exact h.args r hr
    · exact fun r hr => by rw [hl]; exact h.res r hr
  | loaded =>
    have ha : ∀ r, m.heap.length ≤ r → r ∉ m.args := fun r hr hm =>
      absurd (h.args r hm) (not_lt.2 hr)
    have hs : ∀ r, m.heap.length ≤ r → r ∉ m.results := fun r hr hm =>
      absurd (h.res r hm) (not_lt.2 hr)
    refine ⟨?_, ?_, ?_, ?_, ?_, ?_⟩
    · intro r hr
      have h1 := Rows.mem_fresh hr
      refine ⟨?_, ha r h1.1, hs r h1.1, fun h2 => ?_⟩
      · simp only [Rows.length_alloc]; omega
      · have h3 := Rows.mem_fresh h2
        simp only [Rows.length_alloc] at h3; omega
    · intro r hr
      have h1 := Rows.mem_fresh hr
      simp only [Rows.length_alloc] at h1
      refine ⟨?_, ha r (by omega), hs r (by omega), fun h2 => ?_⟩
      · simp only [Rows.length_alloc]; omega
      · have h3 := Rows.mem_fresh h2
        simp only [Rows.length_alloc] at h3; omega
    · intro r hr
      have h1 := Rows.mem_fresh hr
      simp only [Rows.length_alloc] at h1
      refine ⟨?_, ha r (by omega), fun _ => hs r (by omega)⟩
      simp only [Rows.length_alloc]; omega
    · intro r hr
      have := h.args r hr
      simp only [Rows.length_alloc]; omega
    · intro r hr
      have := h.res r hr
      simp only [Rows.length_alloc]; omega
    · show m.told.length = (Rows.fresh _ _).length
      rw [Rows.length_fresh, h.told]
      simp [Mem.records]

theorem MemReach.inv {I : Internal} {U : UserCode} {tr : Pt → Pt} {par : Bool}
    {given : List Pt} {m : Mem} (hr : MemReach I U tr par given m) : MInv I m := by
  induction hr with
  | init => exact MInv.init_state given
  | step _ hs ih => exact hs.inv ih


/-- The end of a restart, as values. -/
theorem install_sound {I : Internal} {tr : Pt → Pt} {m m2 : Mem} {np : List ℕ} {X us : List Pt}
    {js sel : List ℕ} {t : List Pt}
    (hn : ∀ r ∈ np, r < m2.heap.length)
    (hrec : m2.records = m.records) (hin : m2.inits = m.inits)
    (hread : np.map m2.heap.read = X ++ js.map (fun j => m.records.getD j []) ++ us)
    (hus : us = sel.map (fun j => m.inits.getD j []))
    (htold : m2.told = m.told)
    (hj : ∀ j ∈ js, j < m.allPos.length) (hsel : ∀ j ∈ sel, j < m.initPos.length)
    (ht : t = X ++ js.map (fun j => m.told.getD j []) ++ us) (h2 : MInv I m2) :
    PointStep tr m.points (memInstall tr m2 np t).points ∧
      (m.Honest → (memInstall tr m2 np t).Honest) := by
  constructor
  · have e : (memInstall tr m2 np t).points =
        (let new := X ++ js.map (fun j => m.points.records.getD j []) ++
            sel.map (fun j => m.points.inits.getD j [])
         ⟨new.map tr, m.points.records ++ new, m.points.inits⟩) := by
      have ei : (memInstall tr m2 np t).inits = m2.inits := by
        unfold memInstall Mem.inits
        dsimp only
        refine List.map_congr_left (fun r hr => ?_)
        rw [Rows.read_alloc_lt, Rows.read_alloc_lt (h2.init r hr).1]
        rw [Rows.length_alloc]; have := (h2.init r hr).1; omega
      have en : np.map (fun r => tr (m2.heap.read r)) = (np.map m2.heap.read).map tr := by
        rw [List.map_map]; rfl
      unfold Mem.points
      dsimp only
      rw [memInstall_nodes tr m2 np t hn, memInstall_records, ei, en, hread, hrec, hin, hus]
    rw [e]
    refine PointStep.restart m.points X js sel ?_ ?_
    · show ∀ j ∈ js, j < m.records.length
      unfold Mem.records; rw [List.length_map]; exact hj
    · show ∀ j ∈ sel, j < m.inits.length
      unfold Mem.inits; rw [List.length_map]; exact hsel
  · intro hh
    unfold Mem.Honest at hh ⊢
    rw [memInstall_records, hread, hrec, ht]
    show _ = m2.told ++ _
    rw [htold, hh]

/-- With harmless user code every step acts on the points as values, and records stay true. -/
theorem MemStep.sound {I : Internal} {U : UserCode} {tr : Pt → Pt} {par : Bool} {m m' : Mem}
    (hs : MemStep I U tr par m m') (h : MInv I m) (hU : U.Harmless I par) :
    PointStep tr m.points m'.points ∧ (m.Honest → m'.Honest) := by
  have hR := hU.2
  have hcp : par = false → U.argWrites = true → I.copies := by
    intro hp ha
    rcases hU.1 ha with h1 | h1 | h1
    · exact .inl h1
    · exact .inr h1
    · rw [hp] at h1; cases h1
  have hadd : ∀ (m1 : Mem) (x y : ℕ) (t : Pt), MInv I m1 → m1.nodes = m.nodes →
      m1.records = m.records → m1.inits = m.inits → m1.told = m.told → m1.heap.read y = t →
      PointStep tr m.points (memAdd m1 x y t).points ∧
        (m.Honest → (memAdd m1 x y t).Honest) := by
    intro m1 x y t i1 e1 e2 e3 e4 e5
    constructor
    · have e : (memAdd m1 x y t).points =
          ⟨m.points.nodes ++ [m1.heap.read x], m.points.records ++ [t], m.points.inits⟩ := by
        have ei : (memAdd m1 x y t).inits = m1.inits := by
          unfold memAdd Mem.inits
          dsimp only
          refine List.map_congr_left (fun r hr => ?_)
          rw [Rows.read_alloc_lt, Rows.read_alloc_lt (i1.init r hr).1]
          rw [Rows.length_alloc]; have := (i1.init r hr).1; omega
        unfold Mem.points
        dsimp only
        rw [memAdd_nodes, memAdd_records, ei, e1, e2, e3, e5]
      rw [e]
      exact PointStep.add _ _ _
    · intro hh
      unfold Mem.Honest at hh ⊢
      rw [memAdd_records, e2, e5, hh]
      show _ = m1.told ++ _
      rw [e4]
  cases hs with
  | evaluated p q t m1 hp he =>
    obtain ⟨i1, rfl, e1, e2, e3, e4, e5, _, _, _, _, _, e6⟩ := he.point h
    exact hadd m1 _ _ _ i1 e1 (e5 hR) e2 e3 (e6 (hcp hp)).1
  | evaluatedTwice p q t t' m1 m2 hp he he' =>
    obtain ⟨i1, _, e1, e2, e3, e4, e5, hl, f1, f2, f3, hw0, e6⟩ := he.point h
    obtain ⟨i2, rfl, k1, k2, k3, k4, k5, k6⟩ := he'.again i1 (by omega)
      (by rw [f2]; exact fun hm => by have := (h.node _ hm).1; omega)
      (by rw [f1]; exact fun hm => by have := (h.all _ hm).1; omega)
      (by rw [f3]; exact fun hm => by have := (h.init _ hm).1; omega)
    refine hadd m2 _ _ _ i2 (k1.trans e1) ((k5 hR).trans (e5 hR)) (k2.trans e2) (k3.trans e3) ?_
    exact k6 (hcp hp) (e6 (hcp hp)).2
  | collected p q _ =>
    have g := Grown.alloc m [p, q]
    have pe := g.points_eq h
    refine hadd _ _ _ _ (h.grown g) (congrArg Points.nodes pe) (congrArg Points.records pe)
      (congrArg Points.inits pe) rfl ?_
    unfold Rows.alloc Rows.read; simp [List.getD_eq_getElem?_getD]
  | restarted X ts js m1 hp hj he =>
    have k := he.sampled h
    obtain ⟨i1, hlt, hsafe, hread⟩ := k.reuse (js := js)
    have g := memReuse_grown m1 (m.heap.fresh X) js
    have pe := g.points_eq k.inv
    refine install_sound (X := X) (us := []) (sel := []) hlt
      ((congrArg Points.records pe).trans (k.records hR))
      ((congrArg Points.inits pe).trans k.inits) ?_ rfl (g.told.trans k.told) hj
      (fun j hm => absurd hm List.not_mem_nil) ?_ i1
    · rw [hread (hcp hp) hR hj, List.append_nil]
    · rw [(k.exact (hcp hp)).1, k.told, List.append_nil]
  | restartedUser X ts us js sel m1 m2 hp hj hsel he hu =>
    have k := he.sampled h
    obtain ⟨i1, hlt, hsafe, hread⟩ := k.reuse (js := js)
    have g := memReuse_grown m1 (m.heap.fresh X) js
    have pe := g.points_eq k.inv
    have k2 := hu.sampled i1
    obtain ⟨x1, x2⟩ := k2.exact (hcp hp)
    have hus : us = sel.map (fun j => m.inits.getD j []) := by
      rw [x1]
      refine List.map_congr_left (fun j hm => ?_)
      have hl : j < (memReuse m1 (m.heap.fresh X) js).1.initPos.length := by
        rw [g.inits, k.initPos]; exact hsel j hm
      rw [inits_getD hl, g.inits_eq k.inv, k.inits]
    have g3 := memStack_grown m2 (memReuse m1 (m.heap.fresh X) js).2
      (memSelect (memReuse m1 (m.heap.fresh X) js).1 sel).2
    have pe3 := g3.points_eq k2.inv
    refine install_sound (X := X) (us := us) (sel := sel) ?_ ?_ ?_ ?_ hus ?_ hj hsel ?_
      (k2.inv.grown g3)
    · refine memStack_lt (fun r hr => ?_)
      exact (hlt r hr).trans_le ((Nat.le_add_right _ _).trans k2.grow)
    · exact (congrArg Points.records pe3).trans ((k2.records hR).trans
        ((congrArg Points.records pe).trans (k.records hR)))
    · exact (congrArg Points.inits pe3).trans (k2.inits.trans
        ((congrArg Points.inits pe).trans k.inits))
    · rw [memStack_read]
      congr 1
      · rw [← hread (hcp hp) hR hj]
        exact List.map_congr_left (fun r hr => k2.keep r (hlt r hr) (hsafe (hcp hp) r hr))
      · exact x2.trans x1.symm
    · exact g3.told.trans (k2.told.trans (g.told.trans k.told))
    · rw [(k.exact (hcp hp)).1, k.told]
  | restartedGiven X ts js sel m1 hp hj hsel he =>
    have k := he.sampled h
    obtain ⟨i1, hlt, hsafe, hread⟩ := k.reuse (js := js)
    have g := memReuse_grown m1 (m.heap.fresh X) js
    have pe := g.points_eq k.inv
    have g2 := memSelect_grown (memReuse m1 (m.heap.fresh X) js).1 sel
    have pe2 := g2.points_eq i1
    have i2 := i1.grown g2
    have g3 := memStack_grown (memSelect (memReuse m1 (m.heap.fresh X) js).1 sel).1
      (memReuse m1 (m.heap.fresh X) js).2 (memSelect (memReuse m1 (m.heap.fresh X) js).1 sel).2
    have pe3 := g3.points_eq i2
    have hus : sel.map (fun j => (memReuse m1 (m.heap.fresh X) js).1.heap.read
        ((memReuse m1 (m.heap.fresh X) js).1.initPos.getD j 0)) =
        sel.map (fun j => m.inits.getD j []) := by
      refine List.map_congr_left (fun j hm => ?_)
      have hl : j < (memReuse m1 (m.heap.fresh X) js).1.initPos.length := by
        rw [g.inits, k.initPos]; exact hsel j hm
      rw [inits_getD hl, g.inits_eq k.inv, k.inits]
    refine install_sound (X := X) (sel := sel) ?_ ?_ ?_ ?_ hus ?_ hj hsel ?_ (i2.grown g3)
    · exact memStack_lt (fun r hr => (hlt r hr).trans_le g2.grow)
    · exact (congrArg Points.records pe3).trans ((congrArg Points.records pe2).trans
        ((congrArg Points.records pe).trans (k.records hR)))
    · exact (congrArg Points.inits pe3).trans ((congrArg Points.inits pe2).trans
        ((congrArg Points.inits pe).trans k.inits))
    · rw [memStack_read]
      congr 1
      · rw [← hread (hcp hp) hR hj]
        exact List.map_congr_left (fun r hr => g2.keep r (hlt r hr))
      · exact memSelect_read _ _
    · exact g3.told.trans (g2.told.trans (g.told.trans k.told))
    · rw [(k.exact (hcp hp)).1, k.told]
  | restartedPar X js sel hp hj hsel =>
    have g0 := Grown.alloc m X
    have i0 := h.grown g0
    have pe0 := g0.points_eq h
    have hl0 : ∀ r ∈ m.heap.fresh X, r < (m.heap.alloc X).length := fun r hr => by
      rw [Rows.length_alloc]; exact (Rows.mem_fresh hr).2
    have g := memReuse_grown ({ m with heap := m.heap.alloc X } : Mem) (m.heap.fresh X) js
    have pe := g.points_eq i0
    have i1 := i0.grown g
    have hlt := memReuse_lt (m := ({ m with heap := m.heap.alloc X } : Mem)) js hl0
    have g2 := memSelect_grown
      (memReuse ({ m with heap := m.heap.alloc X } : Mem) (m.heap.fresh X) js).1 sel
    have pe2 := g2.points_eq i1
    have i2 := i1.grown g2
    have g3 := memStack_grown (memSelect
      (memReuse ({ m with heap := m.heap.alloc X } : Mem) (m.heap.fresh X) js).1 sel).1
      (memReuse ({ m with heap := m.heap.alloc X } : Mem) (m.heap.fresh X) js).2
      (memSelect (memReuse ({ m with heap := m.heap.alloc X } : Mem) (m.heap.fresh X) js).1 sel).2
    have pe3 := g3.points_eq i2
    have hus : sel.map (fun j =>
        (memReuse ({ m with heap := m.heap.alloc X } : Mem) (m.heap.fresh X) js).1.heap.read
        ((memReuse ({ m with heap := m.heap.alloc X } : Mem)
          (m.heap.fresh X) js).1.initPos.getD j 0)) =
        sel.map (fun j => m.inits.getD j []) := by
      refine List.map_congr_left (fun j hm => ?_)
      have hl : j < (memReuse ({ m with heap := m.heap.alloc X } : Mem)
          (m.heap.fresh X) js).1.initPos.length := by
        rw [g.inits]; exact hsel j hm
      rw [inits_getD hl, g.inits_eq i0, g0.inits_eq h]
    refine install_sound (X := X) (sel := sel) ?_ ?_ ?_ ?_ hus ?_ hj hsel rfl (i2.grown g3)
    · exact memStack_lt (fun r hr => (hlt r hr).trans_le g2.grow)
    · exact (congrArg Points.records pe3).trans ((congrArg Points.records pe2).trans
        ((congrArg Points.records pe).trans (congrArg Points.records pe0)))
    · exact (congrArg Points.inits pe3).trans ((congrArg Points.inits pe2).trans
        ((congrArg Points.inits pe).trans (congrArg Points.inits pe0)))
    · rw [memStack_read]
      congr 1
      · refine Eq.trans (List.map_congr_left (fun r hr => g2.keep r (hlt r hr))) ?_
        rw [memReuse_read]
        congr 1
        · exact Rows.map_read_fresh _ _
        · refine List.map_congr_left (fun j hm => ?_)
          rw [records_getD (by exact hj j hm), g0.records_eq h]
      · exact memSelect_read _ _
    · exact g3.told.trans (g2.told.trans (g.told.trans g0.told))
  | reused p q j hj =>
    have g := Grown.alloc m [p, q]
    have pe := g.points_eq h
    refine hadd _ _ _ _ (h.grown g) (congrArg Points.nodes pe) (congrArg Points.records pe)
      (congrArg Points.inits pe) rfl ?_
    unfold Rows.alloc Rows.read; simp [List.getD_eq_getElem?_getD]
  | removed i k hi =>
    constructor
    · have e : (memRemove m i k).points =
          ⟨m.points.nodes.eraseIdx i, m.points.records.eraseIdx (k + i), m.points.inits⟩ := by
        have ei : (memRemove m i k).inits = m.inits := by
          unfold memRemove Mem.inits
          dsimp only
          refine List.map_congr_left (fun r hr => ?_)
          rw [Rows.read_alloc_lt, Rows.read_alloc_lt (h.init r hr).1]
          rw [Rows.length_alloc]; have := (h.init r hr).1; omega
        unfold Mem.points
        dsimp only
        rw [memRemove_nodes, memRemove_records, ei]
      rw [e]
      exact PointStep.remove _ _ _
    · intro hh
      unfold Mem.Honest at hh ⊢
      rw [memRemove_records, hh]
      rfl
  | returned i hi =>
    split
    · have g := Grown.alloc m [returnedPt I (m.heap.read (m.allPos.getD i 0))]
      have pe := g.points_eq h
      constructor
      · have hk : PointStep tr m.points
            (Mem.points { m with heap := (m.heap.alloc [returnedPt I
              (m.heap.read (m.allPos.getD i 0))]) }) := by
          rw [pe]; exact PointStep.keep _
        exact hk
      · intro hh
        exact (g.records_eq h).trans hh
    · exact ⟨PointStep.keep _, fun hh => hh⟩
  | user h' hw =>
    have e1 : Mem.nodes { m with heap := h' } = m.nodes :=
      List.map_congr_left (fun r hr => hw.2.2 r (h.node_not_writable hr))
    have e2 : Mem.inits { m with heap := h' } = m.inits :=
      List.map_congr_left (fun r hr => hw.2.2 r (h.init_not_writable hr))
    have e3 : Mem.records { m with heap := h' } = m.records :=
      List.map_congr_left (fun r hr => hw.2.2 r (h.all_not_writable hR hr))
    constructor
    · unfold Mem.points
      rw [e1, e2, e3]
      exact PointStep.keep _
    · intro hh
      unfold Mem.Honest at hh ⊢
      rw [e3]; exact hh
  | loaded =>
    have e1 : Mem.nodes { m with
          heap := ((m.heap.alloc m.nodes).alloc m.records).alloc m.inits
          nodePos := m.heap.fresh m.nodes
          allPos := (m.heap.alloc m.nodes).fresh m.records
          initPos := ((m.heap.alloc m.nodes).alloc m.records).fresh m.inits } = m.nodes := by
      unfold Mem.nodes
      dsimp only
      rw [Rows.map_read_alloc, Rows.map_read_alloc, Rows.map_read_fresh]
      · intro r hr; have := Rows.mem_fresh hr; rw [Rows.length_alloc]; omega
      · intro r hr; have := Rows.mem_fresh hr; simp only [Rows.length_alloc]; omega
    have e2 : Mem.records { m with
          heap := ((m.heap.alloc m.nodes).alloc m.records).alloc m.inits
          nodePos := m.heap.fresh m.nodes
          allPos := (m.heap.alloc m.nodes).fresh m.records
          initPos := ((m.heap.alloc m.nodes).alloc m.records).fresh m.inits } = m.records := by
      unfold Mem.records
      dsimp only
      rw [Rows.map_read_alloc, Rows.map_read_fresh]
      intro r hr; have := Rows.mem_fresh hr; rw [Rows.length_alloc]; omega
    have e3 : Mem.inits { m with
          heap := ((m.heap.alloc m.nodes).alloc m.records).alloc m.inits
          nodePos := m.heap.fresh m.nodes
          allPos := (m.heap.alloc m.nodes).fresh m.records
          initPos := ((m.heap.alloc m.nodes).alloc m.records).fresh m.inits } = m.inits := by
      unfold Mem.inits
      dsimp only
      rw [Rows.map_read_fresh]
    constructor
    · unfold Mem.points
      rw [e1, e2, e3]
      exact PointStep.keep _
    · intro hh
      unfold Mem.Honest at hh ⊢
      rw [e2]; exact hh


/-! ### The property -/

/-- C91.  If `evaluate()` writes into its argument only in problems with categorical or fixed
variables or in parallel runs, and the caller writes into the returned point only in problems with
categorical variables, then in the whole life of the object every recorded point has the
coordinates it had when its value was determined. -/
theorem C91_records_honest {I : Internal} {U : UserCode} {tr : Pt → Pt} {par : Bool}
    {given : List Pt} {m : Mem} (hU : U.Harmless I par)
    (hr : MemReach I U tr par given m) : m.Honest := by
  induction hr with
  | init => rfl
  | step hr hs ih => exact (hs.sound hr.inv hU).2 ih

/-- C91.  In the same circumstances points behave as values: a step adds a point, removes a node,
restarts from new points, earlier records and user points, or leaves all points as they are. -/
theorem C91_points_are_values {I : Internal} {U : UserCode} {tr : Pt → Pt} {par : Bool}
    {given : List Pt} {m m' : Mem} (hU : U.Harmless I par)
    (hr : MemReach I U tr par given m) (hs : MemStep I U tr par m m') :
    PointStep tr m.points m'.points := (hs.sound hr.inv hU).1

/-- Writing one row. -/
theorem scribble_one {W : List ℕ} {h : Rows} {r : ℕ} {p : Pt} (hr : r ∈ W)
    (hl : p.length = (h.read r).length) : Scribble W h (h.set r p) := by
  refine ⟨List.length_set, ?_, ?_⟩
  · intro x
    by_cases hx : x = r
    · subst hx
      unfold Rows.read at hl ⊢
      by_cases hlt : x < h.length
      · rw [List.getD_eq_getElem?_getD, List.getElem?_set_self hlt]; exact hl
      · rw [List.set_eq_of_length_le (not_lt.1 hlt)]
    · unfold Rows.read
      rw [List.getD_eq_getElem?_getD, List.getElem?_set_ne (Ne.symm hx),
        ← List.getD_eq_getElem?_getD]
  · intro x hx
    have hne : r ≠ x := fun he => hx (he ▸ hr)
    unfold Rows.read
    rw [List.getD_eq_getElem?_getD, List.getElem?_set_ne hne, ← List.getD_eq_getElem?_getD]

theorem scribble_none (W : List ℕ) (h : Rows) : Scribble W h h :=
  ⟨rfl, fun _ => rfl, fun _ _ => rfl⟩

/-- An evaluation by code that writes nothing. -/
theorem evaluates_quiet (I : Internal) (U : UserCode) (m : Mem) (r : ℕ) :
    ∃ m1, Evaluates I U m r (m.heap.read r) m1 := by
  by_cases hc : I.expansion ≠ [] ∨ I.fixed ≠ []
  · exact ⟨_, Evaluates.copied m r _ hc (scribble_none _ _)⟩
  · exact ⟨_, Evaluates.direct m r _ hc (scribble_none _ _)⟩

/-- C91.  The conditions cannot be weakened: outside of them there is a run after which a recorded
point is not the point that was evaluated.  In a serial run of a problem without categorical and
fixed variables an `evaluate()` that overwrites its argument falsifies the record of that point;
in any run of a problem without categorical variables a caller that overwrites the returned point
falsifies the record of the best point. -/
theorem C91_conditions_exact (I : Internal) (U : UserCode) (tr : Pt → Pt) (par : Bool)
    (given : List Pt) :
    (∀ m, MemReach I U tr par given m → m.Honest) ↔ U.Harmless I par := by
  refine ⟨fun hall => ⟨fun ha => ?_, fun ha => ?_⟩, fun hU m hr => C91_records_honest hU hr⟩
  · by_contra hc
    push Not at hc
    obtain ⟨hc1, hc2, hc3⟩ := hc
    have hp : par = false := by simpa using hc3
    have hn : ¬ (I.expansion ≠ [] ∨ I.fixed ≠ []) := by simp [hc1, hc2]
    have e1 : (given ++ [[0], [0]] : Rows).read (given.length + 1) = [0] := by
      unfold Rows.read; simp [List.getD_eq_getElem?_getD]
    have hw : Scribble (({ ({ memInit given with heap := given ++ [[0], [0]] } : Mem) with
          args := [given.length + 1] } : Mem).writable U) (given ++ [[0], [0]])
        ((given ++ [[0], [0]] : Rows).set (given.length + 1) [1]) := by
      refine scribble_one (mem_writable.2 (.inl ⟨ha, by simp⟩)) ?_
      rw [e1]; rfl
    have he := Evaluates.direct (I := I) (U := U)
      { memInit given with heap := given ++ [[0], [0]] } (given.length + 1) _ hn hw
    rw [show Rows.read _ _ = _ from e1] at he
    have h := hall _ (.step .init
      (MemStep.evaluated (memInit given) [0] [0] [0] _ hp he))
    unfold Mem.Honest at h
    rw [memAdd_records] at h
    have h2 : (([] : List Pt) ++
        [((given ++ [[0], [0]] : Rows).set (given.length + 1) [1]).getD (given.length + 1) []]) =
        ([] : List Pt) ++ [[0]] := h
    simp [List.getD_eq_getElem?_getD] at h2
  · by_contra hc
    have hn : ¬ (I.expansion ≠ []) := by simpa using hc
    -- a state with one record
    have h1 : ∃ m1 : Mem, MemReach I U tr par given m1 ∧ m1.allPos ≠ [] ∧ m1.told = [[0]] := by
      cases hp : par with
      | false =>
        obtain ⟨m1, he⟩ := evaluates_quiet I U
          ({ memInit given with heap := Rows.alloc given [[0], [0]] } : Mem) (given.length + 1)
        rw [show Rows.read _ _ = [0] by
          unfold Rows.alloc Rows.read; simp [List.getD_eq_getElem?_getD]] at he
        refine ⟨_, .step .init (MemStep.evaluated (memInit given) [0] [0] [0] m1 rfl he), ?_, ?_⟩
        · intro hx
          have := congrArg List.length hx
          unfold memAdd at this
          rw [Rows.length_fresh] at this
          simp at this
        · show m1.told ++ _ = _
          rw [(he.point (MInv.init_state given)).2.2.2.2.1]; rfl
      | true =>
        refine ⟨_, .step .init (MemStep.collected (memInit given) [0] [0] rfl), ?_, rfl⟩
        intro hx
        have := congrArg List.length hx
        unfold memAdd at this
        rw [Rows.length_fresh] at this
        simp at this
    obtain ⟨m1, hr1, hne, ht⟩ := h1
    have hpos : 0 < m1.allPos.length := List.length_pos_iff.2 hne
    have hrec : m1.records = [[0]] := (hall m1 hr1).trans ht
    have hr2 := MemReach.step hr1 (MemStep.returned m1 0 hpos)
    rw [if_neg hn] at hr2
    obtain ⟨r, hall1⟩ : ∃ r, m1.allPos = [r] := by
      have := congrArg List.length hrec
      unfold Mem.records at this
      rw [List.length_map] at this
      exact List.length_eq_one_iff.1 this
    have hrd : m1.heap.read r = [0] := by
      unfold Mem.records at hrec
      rw [hall1] at hrec
      simpa using hrec
    have hlt : r < m1.heap.length := (hr1.inv.all r (by rw [hall1]; simp)).1
    rw [hall1] at hr2
    have hw : Scribble (({ m1 with results := r :: m1.results } : Mem).writable U) m1.heap
        (m1.heap.set r [1]) := by
      refine scribble_one (mem_writable.2 (.inr ⟨ha, List.mem_cons_self⟩)) ?_
      rw [hrd]; rfl
    have hr3 := MemReach.step hr2 (MemStep.user _ _ hw)
    have h := hall _ hr3
    have h2 : [r].map (Rows.read (m1.heap.set r [1])) = [[0]] := by
      have h3 : List.map (Rows.read (m1.heap.set r [1])) [r] = m1.told := h
      rw [ht] at h3
      exact h3
    unfold Rows.read at h2
    simp [List.getD_eq_getElem?_getD, hlt] at h2

theorem memAdd_inits {I : Internal} {m : Mem} (h : MInv I m) (x y : ℕ) (t : Pt) :
    (memAdd m x y t).inits = m.inits := by
  unfold memAdd Mem.inits
  dsimp only
  refine List.map_congr_left (fun r hr => ?_)
  rw [Rows.read_alloc_lt, Rows.read_alloc_lt (h.init r hr).1]
  rw [Rows.length_alloc]; have := (h.init r hr).1; omega

theorem memRemove_inits {I : Internal} {m : Mem} (h : MInv I m) (i k : ℕ) :
    (memRemove m i k).inits = m.inits := by
  unfold memRemove Mem.inits
  dsimp only
  refine List.map_congr_left (fun r hr => ?_)
  rw [Rows.read_alloc_lt, Rows.read_alloc_lt (h.init r hr).1]
  rw [Rows.length_alloc]; have := (h.init r hr).1; omega

theorem memInstall_inits {I : Internal} {m : Mem} (h : MInv I m) (tr : Pt → Pt) (np : List ℕ)
    (t : List Pt) : (memInstall tr m np t).inits = m.inits := by
  unfold memInstall Mem.inits
  dsimp only
  refine List.map_congr_left (fun r hr => ?_)
  rw [Rows.read_alloc_lt, Rows.read_alloc_lt (h.init r hr).1]
  rw [Rows.length_alloc]; have := (h.init r hr).1; omega

/-- What a step can do whatever user code does: `nodes`, `records`, `inits` are the points before,
`nodes'`, `records'`, `inits'` those after; `keep` says that records made earlier are out of reach
of user code. -/
structure StepBound (tr : Pt → Pt) (keep : Prop) (P P' : Points) : Prop where
  inits : P'.inits = P.inits
  nodes : P'.nodes = P.nodes ∨ (∃ p, P'.nodes = P.nodes ++ [p]) ∨
    (∃ i, P'.nodes = P.nodes.eraseIdx i) ∨ (∃ new, P'.nodes = new.map tr ∧ new <:+ P'.records)
  records : keep → P.records <+: P'.records ∨ ∃ i, P'.records = P.records.eraseIdx i

theorem install_bound {I : Internal} {tr : Pt → Pt} {keep : Prop} {m m2 : Mem} {np : List ℕ}
    {t : List Pt} (h2 : MInv I m2) (hn : ∀ r ∈ np, r < m2.heap.length)
    (hrec : keep → m2.records = m.records) (hin : m2.inits = m.inits) :
    StepBound tr keep m.points (memInstall tr m2 np t).points := by
  refine ⟨(memInstall_inits h2 _ _ _).trans hin, .inr (.inr (.inr
    ⟨np.map m2.heap.read, ?_, ?_⟩)), fun hk => .inl ?_⟩
  · show (memInstall tr m2 np t).nodes = _
    rw [memInstall_nodes tr m2 np t hn, List.map_map]; rfl
  · show _ <:+ (memInstall tr m2 np t).records
    rw [memInstall_records]; exact List.suffix_append _ _
  · show m.records <+: (memInstall tr m2 np t).records
    rw [memInstall_records, hrec hk]; exact List.prefix_append _ _

theorem MemStep.bound {I : Internal} {U : UserCode} {tr : Pt → Pt} {par : Bool} {m m' : Mem}
    (hs : MemStep I U tr par m m') (h : MInv I m) :
    StepBound tr (U.resWrites = true → I.expansion ≠ []) m.points m'.points := by
  have hadd : ∀ (m1 : Mem) (x y : ℕ) (t : Pt), MInv I m1 → m1.nodes = m.nodes →
      ((U.resWrites = true → I.expansion ≠ []) → m1.records = m.records) → m1.inits = m.inits →
      StepBound tr (U.resWrites = true → I.expansion ≠ []) m.points (memAdd m1 x y t).points := by
    intro m1 x y t i1 e1 e2 e3
    refine ⟨(memAdd_inits i1 _ _ _).trans e3, .inr (.inl ⟨m1.heap.read x, ?_⟩),
      fun hk => .inl ?_⟩
    · show (memAdd m1 x y t).nodes = m.nodes ++ _
      rw [memAdd_nodes, e1]
    · show m.records <+: (memAdd m1 x y t).records
      rw [memAdd_records, e2 hk]; exact List.prefix_append _ _
  have hkeep : ∀ m1 : Mem, m1.points = m.points →
      StepBound tr (U.resWrites = true → I.expansion ≠ []) m.points m1.points := by
    intro m1 e
    rw [e]
    exact ⟨rfl, .inl rfl, fun _ => .inl (List.prefix_refl _)⟩
  have hs' := hs
  cases hs with
  | evaluated p q t m1 hp he =>
    obtain ⟨i1, rfl, e1, e2, e3, e4, e5, _⟩ := he.point h
    exact hadd m1 _ _ _ i1 e1 e5 e2
  | evaluatedTwice p q t t' m1 m2 hp he he' =>
    obtain ⟨i1, _, e1, e2, e3, e4, e5, hl, f1, f2, f3, hw0, e6⟩ := he.point h
    obtain ⟨i2, rfl, k1, k2, k3, k4, k5, k6⟩ := he'.again i1 (by omega)
      (by rw [f2]; exact fun hm => by have := (h.node _ hm).1; omega)
      (by rw [f1]; exact fun hm => by have := (h.all _ hm).1; omega)
      (by rw [f3]; exact fun hm => by have := (h.init _ hm).1; omega)
    exact hadd m2 _ _ _ i2 (k1.trans e1) (fun hk => (k5 hk).trans (e5 hk)) (k2.trans e2)
  | collected p q _ =>
    have g := Grown.alloc m [p, q]
    exact hadd _ _ _ _ (h.grown g) (congrArg Points.nodes (g.points_eq h))
      (fun _ => g.records_eq h) (g.inits_eq h)
  | restarted X ts js m1 hp hj he =>
    have k := he.sampled h
    obtain ⟨i1, hlt, hsafe, hread⟩ := k.reuse (js := js)
    have g := memReuse_grown m1 (m.heap.fresh X) js
    exact install_bound i1 hlt (fun hk => (g.records_eq k.inv).trans (k.records hk))
      ((g.inits_eq k.inv).trans k.inits)
  | restartedUser X ts us js sel m1 m2 hp hj hsel he hu =>
    have k := he.sampled h
    obtain ⟨i1, hlt, hsafe, hread⟩ := k.reuse (js := js)
    have g := memReuse_grown m1 (m.heap.fresh X) js
    have k2 := hu.sampled i1
    have g3 := memStack_grown m2 (memReuse m1 (m.heap.fresh X) js).2
      (memSelect (memReuse m1 (m.heap.fresh X) js).1 sel).2
    refine install_bound (k2.inv.grown g3) ?_ ?_ ?_
    · exact memStack_lt (fun r hr => (hlt r hr).trans_le
        ((Nat.le_add_right _ _).trans k2.grow))
    · exact fun hk => (g3.records_eq k2.inv).trans ((k2.records hk).trans
        ((g.records_eq k.inv).trans (k.records hk)))
    · exact (g3.inits_eq k2.inv).trans (k2.inits.trans ((g.inits_eq k.inv).trans k.inits))
  | restartedGiven X ts js sel m1 hp hj hsel he =>
    have k := he.sampled h
    obtain ⟨i1, hlt, hsafe, hread⟩ := k.reuse (js := js)
    have g := memReuse_grown m1 (m.heap.fresh X) js
    have g2 := memSelect_grown (memReuse m1 (m.heap.fresh X) js).1 sel
    have i2 := i1.grown g2
    have g3 := memStack_grown (memSelect (memReuse m1 (m.heap.fresh X) js).1 sel).1
      (memReuse m1 (m.heap.fresh X) js).2 (memSelect (memReuse m1 (m.heap.fresh X) js).1 sel).2
    refine install_bound (i2.grown g3) ?_ ?_ ?_
    · exact memStack_lt (fun r hr => (hlt r hr).trans_le g2.grow)
    · exact fun hk => (g3.records_eq i2).trans ((g2.records_eq i1).trans
        ((g.records_eq k.inv).trans (k.records hk)))
    · exact (g3.inits_eq i2).trans ((g2.inits_eq i1).trans ((g.inits_eq k.inv).trans k.inits))
  | restartedPar X js sel hp hj hsel =>
    have g0 := Grown.alloc m X
    have i0 := h.grown g0
    have hl0 : ∀ r ∈ m.heap.fresh X, r < (m.heap.alloc X).length := fun r hr => by
      rw [Rows.length_alloc]; exact (Rows.mem_fresh hr).2
    have g := memReuse_grown ({ m with heap := m.heap.alloc X } : Mem) (m.heap.fresh X) js
    have i1 := i0.grown g
    have hlt := memReuse_lt (m := ({ m with heap := m.heap.alloc X } : Mem)) js hl0
    have g2 := memSelect_grown
      (memReuse ({ m with heap := m.heap.alloc X } : Mem) (m.heap.fresh X) js).1 sel
    have i2 := i1.grown g2
    have g3 := memStack_grown (memSelect
      (memReuse ({ m with heap := m.heap.alloc X } : Mem) (m.heap.fresh X) js).1 sel).1
      (memReuse ({ m with heap := m.heap.alloc X } : Mem) (m.heap.fresh X) js).2
      (memSelect (memReuse ({ m with heap := m.heap.alloc X } : Mem) (m.heap.fresh X) js).1 sel).2
    refine install_bound (i2.grown g3) ?_ ?_ ?_
    · exact memStack_lt (fun r hr => (hlt r hr).trans_le g2.grow)
    · exact fun _ => (g3.records_eq i2).trans ((g2.records_eq i1).trans
        ((g.records_eq i0).trans (g0.records_eq h)))
    · exact (g3.inits_eq i2).trans ((g2.inits_eq i1).trans
        ((g.inits_eq i0).trans (g0.inits_eq h)))
  | reused p q j hj =>
    have g := Grown.alloc m [p, q]
    exact hadd _ _ _ _ (h.grown g) (congrArg Points.nodes (g.points_eq h))
      (fun _ => g.records_eq h) (g.inits_eq h)
  | removed i k hi =>
    exact ⟨memRemove_inits h _ _, .inr (.inr (.inl ⟨i, memRemove_nodes _ _ _⟩)),
      fun _ => .inr ⟨k + i, memRemove_records _ _ _⟩⟩
  | returned i hi =>
    split
    · have g := Grown.alloc m [returnedPt I (m.heap.read (m.allPos.getD i 0))]
      have := hkeep _ (g.points_eq h)
      exact this
    · exact hkeep m rfl
  | user h' hw =>
    refine ⟨List.map_congr_left (fun r hr => hw.2.2 r (h.init_not_writable hr)),
      .inl (List.map_congr_left (fun r hr => hw.2.2 r (h.node_not_writable hr))),
      fun hk => .inl ?_⟩
    have e : Mem.records { m with heap := h' } = m.records :=
      List.map_congr_left (fun r hr => hw.2.2 r (h.all_not_writable hk hr))
    show m.records <+: Mem.records { m with heap := h' }
    rw [e]; exact List.prefix_refl _
  | loaded =>
    have e1 : Mem.nodes { m with
          heap := ((m.heap.alloc m.nodes).alloc m.records).alloc m.inits
          nodePos := m.heap.fresh m.nodes
          allPos := (m.heap.alloc m.nodes).fresh m.records
          initPos := ((m.heap.alloc m.nodes).alloc m.records).fresh m.inits } = m.nodes := by
      unfold Mem.nodes
      dsimp only
      rw [Rows.map_read_alloc, Rows.map_read_alloc, Rows.map_read_fresh]
      · intro r hr; have := Rows.mem_fresh hr; rw [Rows.length_alloc]; omega
      · intro r hr; have := Rows.mem_fresh hr; simp only [Rows.length_alloc]; omega
    have e2 : Mem.records { m with
          heap := ((m.heap.alloc m.nodes).alloc m.records).alloc m.inits
          nodePos := m.heap.fresh m.nodes
          allPos := (m.heap.alloc m.nodes).fresh m.records
          initPos := ((m.heap.alloc m.nodes).alloc m.records).fresh m.inits } = m.records := by
      unfold Mem.records
      dsimp only
      rw [Rows.map_read_alloc, Rows.map_read_fresh]
      intro r hr; have := Rows.mem_fresh hr; rw [Rows.length_alloc]; omega
    have e3 : Mem.inits { m with
          heap := ((m.heap.alloc m.nodes).alloc m.records).alloc m.inits
          nodePos := m.heap.fresh m.nodes
          allPos := (m.heap.alloc m.nodes).fresh m.records
          initPos := ((m.heap.alloc m.nodes).alloc m.records).fresh m.inits } = m.inits := by
      unfold Mem.inits
      dsimp only
      rw [Rows.map_read_fresh]
    refine hkeep _ ?_
    unfold Mem.points
    rw [e1, e2, e3]

/-- C91.  Whatever user code does with the arrays it gets, the starting points given to the
constructor stay as they were given. -/
theorem C91_user_points_kept {I : Internal} {U : UserCode} {tr : Pt → Pt} {par : Bool}
    {given : List Pt} {m : Mem} (hr : MemReach I U tr par given m) : m.inits = given := by
  induction hr with
  | init =>
    unfold memInit Mem.inits
    have := Rows.map_read_fresh [] given
    unfold Rows.alloc at this
    simpa using this
  | step hr hs ih => exact (hs.bound hr.inv).inits.trans ih

/-- C91.  Whatever user code does, interpolation nodes are changed by the algorithm only: a step
leaves them, adds one, removes one, or (a restart) replaces them by the transforms of the points
it records. -/
theorem C91_nodes_out_of_reach {I : Internal} {U : UserCode} {tr : Pt → Pt} {par : Bool}
    {given : List Pt} {m m' : Mem} (hr : MemReach I U tr par given m)
    (hs : MemStep I U tr par m m') :
    m'.nodes = m.nodes ∨ (∃ p, m'.nodes = m.nodes ++ [p]) ∨
      (∃ i, m'.nodes = m.nodes.eraseIdx i) ∨
      (∃ new, m'.nodes = new.map tr ∧ new <:+ m'.records) := (hs.bound hr.inv).nodes

/-- C91.  If the caller leaves returned points alone (or there are categorical variables), an
`evaluate()` that writes into arrays it was given, now or in earlier calls, can falsify only the
point it is evaluating: records made earlier keep their coordinates. -/
theorem C91_earlier_records_kept {I : Internal} {U : UserCode} {tr : Pt → Pt} {par : Bool}
    {given : List Pt} {m m' : Mem} (hU : U.resWrites = true → I.expansion ≠ [])
    (hr : MemReach I U tr par given m) (hs : MemStep I U tr par m m') :
    m.records <+: m'.records ∨ ∃ i, m'.records = m.records.eraseIdx i :=
  (hs.bound hr.inv).records hU

/-- C91.  A noisy evaluation that overwrites its argument makes the accurate evaluation that
follows it in the same iteration look at a different point. -/
theorem C91_violated_second_evaluation {I : Internal} (hI : ¬ (I.expansion ≠ [] ∨ I.fixed ≠ [])) :
    ∃ (m m1 m2 : Mem) (p q t t' : Pt),
      MemReach I ⟨true, false⟩ id false [] m ∧
      Evaluates I ⟨true, false⟩ { m with heap := m.heap.alloc [p, q] } (m.heap.length + 1) t m1 ∧
      Evaluates I ⟨true, false⟩ m1 (m.heap.length + 1) t' m2 ∧ t = q ∧ t' ≠ q := by
  have e1 : (([] : Rows) ++ [[0], [0]] : Rows).read 1 = [0] := rfl
  have hw : Scribble (({ ({ memInit [] with heap := [] ++ [[0], [0]] } : Mem) with
        args := [1] } : Mem).writable ⟨true, false⟩) ([] ++ [[0], [0]])
      (([] ++ [[0], [0]] : Rows).set 1 [1]) :=
    scribble_one (mem_writable.2 (.inl ⟨rfl, by simp⟩)) rfl
  have he := Evaluates.direct (I := I) (U := ⟨true, false⟩)
    { memInit [] with heap := [] ++ [[0], [0]] } 1 _ hI hw
  have he2 := Evaluates.direct (I := I) (U := ⟨true, false⟩)
    { ({ memInit [] with heap := ([] ++ [[0], [0]] : Rows).set 1 [1] } : Mem) with args := [1] }
    1 _ hI (scribble_none _ _)
  exact ⟨memInit [], _, _, [0], [0], _, _, .init, he, he2, rfl, by decide⟩

theorem addNode_pos {O : Type} (s : Alg O) (p q : Pt) (v : ℚ) :
    (addNode s p q v).cur.pos = s.cur.pos ++ [p] ∧
      (addNode s p q v).all.pos = s.all.pos ++ [q] := by
  unfold addNode
  dsimp only
  split <;> split <;> exact ⟨rfl, rfl⟩

/-- C91.  The arrays of coordinates follow the model used for the other properties, where points
are values: with harmless user code, evaluating the point `q` (in the coordinates of the nodes
`p`) and adding it leaves in the arrays what `addNode` leaves in the state, whatever the value. -/
theorem C91_arrays_follow_state {O : Type} {I : Internal} {U : UserCode} {given : List Pt}
    {par : Bool} {tr : Pt → Pt} {m m1 : Mem} {p q t : Pt} (s : Alg O) (v : ℚ)
    (hU : U.Harmless I false) (hr : MemReach I U tr par given m)
    (hn : m.nodes = s.cur.pos) (ha : m.records = s.all.pos)
    (he : Evaluates I U { m with heap := m.heap.alloc [p, q] } (m.heap.length + 1) t m1) :
    t = q ∧
    (memAdd m1 m.heap.length (m.heap.length + 1) t).nodes = (addNode s p q v).cur.pos ∧
    (memAdd m1 m.heap.length (m.heap.length + 1) t).records = (addNode s p q v).all.pos := by
  have hcp : U.argWrites = true → I.copies := by
    intro ha
    rcases hU.1 ha with h1 | h1 | h1
    · exact .inl h1
    · exact .inr h1
    · cases h1
  obtain ⟨_, e0, e1, _, _, e4, e5, _, _, _, _, _, e6⟩ := he.point hr.inv
  refine ⟨e0, ?_, ?_⟩
  · rw [memAdd_nodes, e1, e4, hn, (addNode_pos s p q v).1]
  · rw [memAdd_records, e5 hU.2, (e6 hcp).1, ha, (addNode_pos s p q v).2]

/-- A problem with one categorical variable of two values. -/
def Demo.memProblem : Internal := ⟨2, [0, 0], [1, 1], [0, 1], [0], [], [(0, 0, [0, 1])], []⟩

/-- C91.  A life of an object of a problem with a categorical variable in which `evaluate()`
overwrites its argument: it does get written, and the record is right. -/
theorem Demo.C91_example :
    ∃ m : Mem, MemReach Demo.memProblem ⟨true, true⟩ id false [] m ∧ m.records = [[1, 0]] ∧
      m.told = [[1, 0]] ∧ m.heap.read 2 = [7] ∧ 2 ∈ m.args := by
  have hc : Demo.memProblem.expansion ≠ [] ∨ Demo.memProblem.fixed ≠ [] := .inl (by decide)
  have hd : decodePt Demo.memProblem [1, 0] = [0] := by decide +kernel
  have hw : Scribble (({ ({ memInit [] with heap := Rows.alloc [] [[1, 0], [1, 0]] } : Mem) with
        args := [2] } : Mem).writable ⟨true, true⟩)
      (Rows.alloc (Rows.alloc [] [[1, 0], [1, 0]]) [decodePt Demo.memProblem [1, 0]])
      ((Rows.alloc (Rows.alloc [] [[1, 0], [1, 0]]) [decodePt Demo.memProblem [1, 0]]).set 2 [7]) :=
    scribble_one (mem_writable.2 (.inl ⟨rfl, by simp⟩)) (by rw [hd]; rfl)
  have he : Evaluates Demo.memProblem ⟨true, true⟩
      { memInit [] with heap := Rows.alloc [] [[1, 0], [1, 0]] } 1 [1, 0] _ :=
    Evaluates.copied { memInit [] with heap := Rows.alloc [] [[1, 0], [1, 0]] } 1 _ hc hw
  rw [hd] at he
  refine ⟨_, .step .init (MemStep.evaluated (memInit []) [1, 0] [1, 0] [1, 0] _ rfl he),
    ?_, ?_, ?_, ?_⟩
  all_goals decide +kernel

end Rbfopt
