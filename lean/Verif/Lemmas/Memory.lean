import Verif.Model.Memory

/-!
# Lemmas on the arrays in memory
-/

namespace Rbfopt

namespace Rows

theorem read_alloc_lt {h : Rows} {rows : List Pt} {r : ℕ} (hr : r < h.length) :
    (h.alloc rows).read r = h.read r := by
  unfold Rows.alloc Rows.read
  rw [List.getD_eq_getElem?_getD, List.getD_eq_getElem?_getD, List.getElem?_append_left hr]

theorem length_alloc (h : Rows) (rows : List Pt) :
    (h.alloc rows).length = h.length + rows.length := by
  unfold Rows.alloc; simp

theorem map_read_fresh (h : Rows) (rows : List Pt) :
    (h.fresh rows).map (h.alloc rows).read = rows := by
  unfold Rows.fresh Rows.alloc Rows.read
  apply List.ext_getElem
  · simp
  · intro i h1 h2
    simp only [List.getElem_map, List.getElem_range', List.getD_eq_getElem?_getD]
    rw [List.getElem?_append_right (by omega)]
    simp [h2]

theorem mem_fresh {h : Rows} {rows : List Pt} {r : ℕ} (hr : r ∈ h.fresh rows) :
    h.length ≤ r ∧ r < h.length + rows.length := by
  unfold Rows.fresh at hr
  rw [List.mem_range'] at hr
  obtain ⟨i, hi, rfl⟩ := hr
  constructor
  · omega
  · simpa using hi

theorem length_fresh (h : Rows) (rows : List Pt) : (h.fresh rows).length = rows.length := by
  unfold Rows.fresh; simp

/-- Reading rows that exist already is not affected by an allocation. -/
theorem map_read_alloc {h : Rows} {rows : List Pt} {rs : List ℕ} (hr : ∀ r ∈ rs, r < h.length) :
    rs.map (h.alloc rows).read = rs.map h.read :=
  List.map_congr_left (fun r hm => read_alloc_lt (hr r hm))

end Rows

/-- What calls of user code leave alone: `m` before, `m'` after, `S` the rows of the algorithm
that were handed over; `cp` says that `objfun` makes copies. -/
structure Handed (cp : Prop) (U : UserCode) (S : List ℕ) (m m' : Mem) : Prop where
  node : m'.nodePos = m.nodePos
  all : m'.allPos = m.allPos
  inits : m'.initPos = m.initPos
  res : m'.results = m.results
  told : m'.told = m.told
  grow : m.heap.length ≤ m'.heap.length
  args : ∀ a ∈ m'.args, a ∈ m.args ∨ (a ∈ S ∧ ¬ cp) ∨ (m.heap.length ≤ a ∧ a < m'.heap.length)
  keep : ∀ x, x < m.heap.length → x ∉ m.writable U → (x ∈ S → ¬ cp → U.argWrites = false) →
    m'.heap.read x = m.heap.read x

theorem Handed.refl (cp : Prop) (U : UserCode) (S : List ℕ) (m : Mem) : Handed cp U S m m :=
  ⟨rfl, rfl, rfl, rfl, rfl, le_refl _, fun _ ha => .inl ha, fun _ _ _ _ => rfl⟩

theorem mem_writable {U : UserCode} {m : Mem} {x : ℕ} :
    x ∈ m.writable U ↔ (U.argWrites = true ∧ x ∈ m.args) ∨ (U.resWrites = true ∧ x ∈ m.results) := by
  unfold Mem.writable
  rw [List.mem_append]
  constructor
  · rintro (h | h)
    · split at h
      · exact .inl ⟨by assumption, h⟩
      · exact absurd h List.not_mem_nil
    · split at h
      · exact .inr ⟨by assumption, h⟩
      · exact absurd h List.not_mem_nil
  · rintro (⟨h1, h2⟩ | ⟨h1, h2⟩)
    · left; rw [if_pos h1]; exact h2
    · right; rw [if_pos h1]; exact h2

theorem Handed.trans {cp : Prop} {U : UserCode} {S T : List ℕ} {m m1 m2 : Mem}
    (h1 : Handed cp U S m m1) (h2 : Handed cp U T m1 m2) : Handed cp U (S ++ T) m m2 := by
  refine ⟨h2.node.trans h1.node, h2.all.trans h1.all, h2.inits.trans h1.inits,
    h2.res.trans h1.res, h2.told.trans h1.told, h1.grow.trans h2.grow, ?_, ?_⟩
  · intro a ha
    rcases h2.args a ha with h | ⟨h, hc⟩ | h
    · rcases h1.args a h with h' | ⟨h', hc⟩ | ⟨h', h''⟩
      · exact .inl h'
      · exact .inr (.inl ⟨List.mem_append_left _ h', hc⟩)
      · exact .inr (.inr ⟨h', h''.trans_le h2.grow⟩)
    · exact .inr (.inl ⟨List.mem_append_right _ h, hc⟩)
    · exact .inr (.inr ⟨h1.grow.trans h.1, h.2⟩)
  · intro x hx hw hS
    have e1 := h1.keep x hx hw (fun hs => hS (List.mem_append_left _ hs))
    rw [← e1]
    refine h2.keep x (hx.trans_le h1.grow) ?_ (fun ht => hS (List.mem_append_right _ ht))
    intro hw1
    rcases mem_writable.1 hw1 with ⟨ha, hm⟩ | ⟨ha, hm⟩
    · rcases h1.args x hm with h | ⟨h, hc⟩ | h
      · exact hw (mem_writable.2 (.inl ⟨ha, h⟩))
      · rw [hS (List.mem_append_left _ h) hc] at ha; cases ha
      · omega
    · rw [h1.res] at hm
      exact hw (mem_writable.2 (.inr ⟨ha, hm⟩))

/-- The copies made by `objfun`. -/
def Internal.copies (I : Internal) : Prop := I.expansion ≠ [] ∨ I.fixed ≠ []

theorem Evaluates.handed {I : Internal} {U : UserCode} {m m' : Mem} {r : ℕ} {t : Pt}
    (h : Evaluates I U m r t m') :
    Handed I.copies U [r] m m' ∧ t = m.heap.read r := by
  cases h with
  | copied h' hc hw =>
    refine ⟨⟨rfl, rfl, rfl, rfl, rfl, ?_, ?_, ?_⟩, rfl⟩
    · show m.heap.length ≤ h'.length
      rw [hw.1, Rows.length_alloc]; omega
    · intro a ha
      rcases List.mem_cons.1 ha with rfl | ha
      · refine .inr (.inr ⟨le_refl _, ?_⟩)
        show m.heap.length < h'.length
        rw [hw.1, Rows.length_alloc]; simp
      · exact .inl ha
    · intro x hx hnw hS
      show h'.read x = _
      rw [hw.2.2 x ?_, Rows.read_alloc_lt hx]
      intro hxw
      rcases mem_writable.1 hxw with ⟨ha, hm⟩ | ⟨ha, hm⟩
      · rcases List.mem_cons.1 hm with rfl | hm
        · omega
        · exact hnw (mem_writable.2 (.inl ⟨ha, hm⟩))
      · exact hnw (mem_writable.2 (.inr ⟨ha, hm⟩))
  | direct h' hc hw =>
    refine ⟨⟨rfl, rfl, rfl, rfl, rfl, ?_, ?_, ?_⟩, rfl⟩
    · show m.heap.length ≤ h'.length
      rw [hw.1]
    · intro a ha
      rcases List.mem_cons.1 ha with rfl | ha
      · exact .inr (.inl ⟨List.mem_cons_self, hc⟩)
      · exact .inl ha
    · intro x hx hnw hS
      show h'.read x = _
      rw [hw.2.2 x ?_]
      intro hxw
      rcases mem_writable.1 hxw with ⟨ha, hm⟩ | ⟨ha, hm⟩
      · rcases List.mem_cons.1 hm with rfl | hm
        · rw [hS List.mem_cons_self hc] at ha; cases ha
        · exact hnw (mem_writable.2 (.inl ⟨ha, hm⟩))
      · exact hnw (mem_writable.2 (.inr ⟨ha, hm⟩))

/-- Each point is told as it is when its turn comes; the rows handed over before keep the value
they were told with unless user code writes. -/
theorem EvaluatesAll.handed {I : Internal} {U : UserCode} {m m' : Mem} {rs : List ℕ}
    {ts : List Pt} (h : EvaluatesAll I U m rs ts m') (hrs : ∀ r ∈ rs, r < m.heap.length) :
    Handed I.copies U rs m m' ∧ ts.length = rs.length ∧
      ((U.argWrites = true → I.copies) → (∀ r ∈ rs, r ∉ m.writable U) →
        ts = rs.map m.heap.read) := by
  induction h with
  | nil m => exact ⟨Handed.refl _ _ _ _, rfl, fun _ _ => rfl⟩
  | @cons m m1 m2 r rs p ps h1 h2 ih =>
    obtain ⟨k1, rfl⟩ := h1.handed
    have hlt : ∀ x ∈ rs, x < m1.heap.length := fun x hx =>
      (hrs x (List.mem_cons_of_mem _ hx)).trans_le k1.grow
    obtain ⟨k2, hl, hv⟩ := ih hlt
    refine ⟨?_, by simp [hl], ?_⟩
    · exact k1.trans k2
    · intro hcp hw
      rw [List.map_cons, hv hcp ?_]
      · congr 1
        refine List.map_congr_left (fun x hx => ?_)
        refine k1.keep x (hrs x (List.mem_cons_of_mem _ hx))
          (hw x (List.mem_cons_of_mem _ hx)) (fun _ hc => ?_)
        by_contra hne
        exact hc (hcp (by simpa using hne))
      · intro x hx hw1
        rcases mem_writable.1 hw1 with ⟨ha, hm⟩ | ⟨ha, hm⟩
        · rcases k1.args x hm with h | ⟨h, hc⟩ | h
          · exact hw x (List.mem_cons_of_mem _ hx) (mem_writable.2 (.inl ⟨ha, h⟩))
          · exact hc (hcp ha)
          · exact absurd h.1 (not_le.2 (hrs x (List.mem_cons_of_mem _ hx)))
        · rw [k1.res] at hm
          exact hw x (List.mem_cons_of_mem _ hx) (mem_writable.2 (.inr ⟨ha, hm⟩))

/-! ### The arrays after each operation -/

theorem memAdd_records (m : Mem) (x y : ℕ) (t : Pt) :
    (memAdd m x y t).records = m.records ++ [m.heap.read y] := by
  unfold memAdd
  exact Rows.map_read_fresh _ _

theorem memAdd_nodes (m : Mem) (x y : ℕ) (t : Pt) :
    (memAdd m x y t).nodes = m.nodes ++ [m.heap.read x] := by
  unfold memAdd
  show List.map (Rows.read _) (m.heap.fresh _) = _
  rw [Rows.map_read_alloc, Rows.map_read_fresh]
  intro r hr
  rw [Rows.length_alloc]; exact (Rows.mem_fresh hr).2

theorem memRemove_records (m : Mem) (i k : ℕ) :
    (memRemove m i k).records = m.records.eraseIdx (k + i) := by
  unfold memRemove
  exact Rows.map_read_fresh _ _

theorem memRemove_nodes (m : Mem) (i k : ℕ) :
    (memRemove m i k).nodes = m.nodes.eraseIdx i := by
  unfold memRemove
  show List.map (Rows.read _) (m.heap.fresh _) = _
  rw [Rows.map_read_alloc, Rows.map_read_fresh]
  intro r hr
  rw [Rows.length_alloc]; exact (Rows.mem_fresh hr).2

theorem memInstall_records (tr : Pt → Pt) (m : Mem) (np : List ℕ) (t : List Pt) :
    (memInstall tr m np t).records = m.records ++ np.map m.heap.read := by
  unfold memInstall
  show List.map (Rows.read _) (m.heap.fresh _) = _
  rw [Rows.map_read_alloc, Rows.map_read_fresh]
  intro r hr
  rw [Rows.length_alloc]; exact (Rows.mem_fresh hr).2

theorem memInstall_nodes (tr : Pt → Pt) (m : Mem) (np : List ℕ) (t : List Pt)
    (hnp : ∀ r ∈ np, r < m.heap.length) :
    (memInstall tr m np t).nodes = np.map (fun r => tr (m.heap.read r)) := by
  unfold memInstall
  show List.map (Rows.read _) (Rows.fresh _ _) = _
  rw [Rows.map_read_fresh]
  exact List.map_congr_left (fun r hr => by rw [Rows.read_alloc_lt (hnp r hr)])

/-- Operations that only allocate. -/
structure Grown (m m' : Mem) : Prop where
  node : m'.nodePos = m.nodePos
  all : m'.allPos = m.allPos
  inits : m'.initPos = m.initPos
  args : m'.args = m.args
  res : m'.results = m.results
  told : m'.told = m.told
  grow : m.heap.length ≤ m'.heap.length
  keep : ∀ x, x < m.heap.length → m'.heap.read x = m.heap.read x

theorem Grown.refl (m : Mem) : Grown m m :=
  ⟨rfl, rfl, rfl, rfl, rfl, rfl, le_refl _, fun _ _ => rfl⟩

theorem Grown.trans {m m1 m2 : Mem} (h1 : Grown m m1) (h2 : Grown m1 m2) : Grown m m2 :=
  ⟨h2.node.trans h1.node, h2.all.trans h1.all, h2.inits.trans h1.inits, h2.args.trans h1.args,
    h2.res.trans h1.res, h2.told.trans h1.told, h1.grow.trans h2.grow,
    fun x hx => (h2.keep x (hx.trans_le h1.grow)).trans (h1.keep x hx)⟩

theorem Grown.alloc (m : Mem) (rows : List Pt) :
    Grown m { m with heap := m.heap.alloc rows } :=
  ⟨rfl, rfl, rfl, rfl, rfl, rfl, by show _ ≤ (m.heap.alloc rows).length; rw [Rows.length_alloc]; omega,
    fun _ hx => Rows.read_alloc_lt hx⟩

theorem Grown.writable {m m' : Mem} (h : Grown m m') (U : UserCode) :
    m'.writable U = m.writable U := by
  unfold Mem.writable; rw [h.args, h.res]

theorem Grown.handed {m m' : Mem} (h : Grown m m') (cp : Prop) (U : UserCode) (S : List ℕ) :
    Handed cp U S m m' :=
  ⟨h.node, h.all, h.inits, h.res, h.told, h.grow, fun a ha => .inl (h.args ▸ ha),
    fun x hx _ _ => h.keep x hx⟩

theorem memReuse_grown (m : Mem) (np : List ℕ) (js : List ℕ) :
    Grown m (memReuse m np js).1 := by
  unfold memReuse
  split
  · exact Grown.refl _
  · exact Grown.alloc _ _

theorem memReuse_lt {m : Mem} {np : List ℕ} (js : List ℕ) (hnp : ∀ r ∈ np, r < m.heap.length) :
    ∀ r ∈ (memReuse m np js).2, r < (memReuse m np js).1.heap.length := by
  unfold memReuse
  split
  · exact hnp
  · intro r hr
    show r < (m.heap.alloc _).length
    rw [Rows.length_alloc]; exact (Rows.mem_fresh hr).2

theorem memReuse_read (m : Mem) (np : List ℕ) (js : List ℕ) :
    (memReuse m np js).2.map (memReuse m np js).1.heap.read =
      np.map m.heap.read ++ js.map (fun j => m.heap.read (m.allPos.getD j 0)) := by
  unfold memReuse
  split
  · rename_i h; subst h; simp
  · exact Rows.map_read_fresh _ _

theorem memReuse_mem {m : Mem} {np : List ℕ} {js : List ℕ} :
    ∀ r ∈ (memReuse m np js).2, r ∈ np ∨ m.heap.length ≤ r := by
  unfold memReuse
  split
  · exact fun r hr => .inl hr
  · exact fun r hr => .inr (Rows.mem_fresh hr).1

theorem memSelect_grown (m : Mem) (sel : List ℕ) : Grown m (memSelect m sel).1 :=
  Grown.alloc _ _

theorem memSelect_lt (m : Mem) (sel : List ℕ) :
    ∀ r ∈ (memSelect m sel).2, r < (memSelect m sel).1.heap.length := by
  intro r hr
  show r < (m.heap.alloc _).length
  rw [Rows.length_alloc]; exact (Rows.mem_fresh hr).2

theorem memSelect_ge (m : Mem) (sel : List ℕ) :
    ∀ r ∈ (memSelect m sel).2, m.heap.length ≤ r := fun _ hr => (Rows.mem_fresh hr).1

theorem memSelect_read (m : Mem) (sel : List ℕ) :
    (memSelect m sel).2.map (memSelect m sel).1.heap.read =
      sel.map (fun j => m.heap.read (m.initPos.getD j 0)) := Rows.map_read_fresh _ _

theorem memStack_grown (m : Mem) (np us : List ℕ) : Grown m (memStack m np us).1 := by
  unfold memStack
  split
  · exact Grown.refl _
  · exact Grown.alloc _ _

theorem memStack_lt {m : Mem} {np us : List ℕ} (hnp : ∀ r ∈ np, r < m.heap.length) :
    ∀ r ∈ (memStack m np us).2, r < (memStack m np us).1.heap.length := by
  unfold memStack
  split
  · exact hnp
  · intro r hr
    show r < (m.heap.alloc _).length
    rw [Rows.length_alloc]; exact (Rows.mem_fresh hr).2

theorem memStack_read (m : Mem) (np us : List ℕ) :
    (memStack m np us).2.map (memStack m np us).1.heap.read =
      np.map m.heap.read ++ us.map m.heap.read := by
  unfold memStack
  split
  · rename_i h; subst h; simp
  · exact Rows.map_read_fresh _ _

end Rbfopt
