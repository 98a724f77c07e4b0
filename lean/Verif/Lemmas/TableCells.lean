import Verif.Lemmas.TableReads
/- Which cell a paragraph is in. -/
namespace Verif
variable {s : Store} {d : Document} {f : Nat} {p : SPara} {items : List SItem} {t : STable} {c : SCell}
open Store

theorem findSome?_unique {α β : Type} {g : α → Option β} {v : β} {l : List α} (h : ∃ x ∈ l, g x = some v)
    (hu : ∀ y ∈ l, ∀ w, g y = some w → w = v) : l.findSome? g = some v := by
  cases e : l.findSome? g with
  | none =>
    obtain ⟨x, hx, hv⟩ := h
    rw [List.findSome?_eq_none_iff] at e
    rw [e x hx] at hv; cases hv
  | some w =>
    obtain ⟨y, hy, hw⟩ := List.exists_of_findSome?_eq_some e
    rw [hu y hy w hw]

theorem flatMap_nodup_mem {α β : Type} {g : α → List β} {x : α} : ∀ {l : List α}, (l.flatMap g).Nodup → x ∈ l → (g x).Nodup := by
  intro l
  induction l with
  | nil => intro _ h; cases h
  | cons y l ih =>
    intro hn hx
    rw [List.flatMap_cons, List.nodup_append] at hn
    rcases List.mem_cons.mp hx with rfl | hx
    · exact hn.1
    · exact ih hn.2.1 hx

theorem owner_unique {α : Type} {g : Nat → List α} {x : α} : ∀ {l : List Nat}, (l.flatMap g).Nodup → ∀ {a b : Nat},
    a ∈ l → b ∈ l → x ∈ g a → x ∈ g b → a = b := by
  intro l
  induction l with
  | nil => intro _ a b ha; cases ha
  | cons y l ih =>
    intro hn a b ha hb hxa hxb
    rw [List.flatMap_cons, List.nodup_append] at hn
    rcases List.mem_cons.mp ha with rfl | ha'
    · rcases List.mem_cons.mp hb with rfl | hb'
      · rfl
      · exact absurd rfl (hn.2.2 x hxa x (List.mem_flatMap.mpr ⟨b, hb', hxb⟩))
    · rcases List.mem_cons.mp hb with rfl | hb'
      · exact absurd rfl (hn.2.2 x hxb x (List.mem_flatMap.mpr ⟨a, ha', hxa⟩))
      · exact ih hn.2.1 ha' hb' hxa hxb

theorem Tabled.mem_docFrames (h : Tabled s d f items) {g : Nat} (hg : (s.frames g).isSome) : g ∈ s.docFrames d.id := by
  obtain ⟨rest, h1, h2⟩ := h.frames
  have hdf : s.docFrames d.id = f :: rest := by unfold Store.docFrames; rw [h.document, ← h1]; rfl
  rw [hdf]
  exact (h2.cons f).mem_iff.mpr (h.onlyFrames g hg)

/-- The frame a paragraph is stored in. -/
theorem Tabled.parentFrame (h : Tabled s d f items) {i g : Nat} {fr : Frame} (hg : s.frames g = some fr) (hb : i ∈ fr.blocks) :
    s.parentFrame i = some g := by
  obtain ⟨L, hH, _⟩ := h.content
  have hnd : ((s.docFrames d.id).flatMap s.frameBlocks).Nodup := h.frameBlocks_perm.nodup_iff.mpr hH.ids_nodup
  unfold Store.parentFrame
  cases e : s.frames.keys.find? fun k => ((s.frames k).map fun fr => fr.blocks.contains i).getD false with
  | none =>
    rw [List.find?_eq_none] at e
    have := e g ((s.frames.mem g).mpr (by rw [hg]; rfl))
    simp [hg, hb] at this
  | some k =>
    have h1 := List.find?_some e
    cases hk : s.frames k with
    | none => simp [hk] at h1
    | some kr =>
      simp only [hk, Option.map_some, Option.getD_some, List.contains_iff_mem] at h1
      have e1 : s.frameBlocks g = fr.blocks := by unfold Store.frameBlocks; rw [hg]; rfl
      have e2 : s.frameBlocks k = kr.blocks := by unfold Store.frameBlocks; rw [hk]; rfl
      have : k = g := owner_unique (x := i) hnd (h.mem_docFrames (by rw [hk]; rfl)) (h.mem_docFrames (by rw [hg]; rfl))
        (by rw [e2]; exact h1) (by rw [e1]; exact hb)
      rw [this]

theorem Tabled.parentFrame_top (h : Tabled s d f items) (hp : p ∈ topParas items) : s.parentFrame p.id = some f := by
  obtain ⟨fr, f1, f2, f3, f4, f5, f6, f7⟩ := h.frame
  exact h.parentFrame f1 (f7.mem_iff.mpr (List.mem_map_of_mem hp))

theorem Tabled.parentFrame_cell (h : Tabled s d f items) (ht : t ∈ tablesOf items) (hc : c ∈ t.cells) (hp : p ∈ c.paras) :
    s.parentFrame p.id = some c.frame := by
  obtain ⟨_, _, _, fr, c1, c2, c3, c4, c5, c6⟩ := (h.table t ht).cell c hc
  exact h.parentFrame c1 (c6.mem_iff.mpr (List.mem_map_of_mem hp))

/-- The frames of cells are told apart. -/
theorem Tabled.cell_unique (h : Tabled s d f items) {u : STable} {x : SCell} (ht : t ∈ tablesOf items) (hc : c ∈ t.cells)
    (hu : u ∈ tablesOf items) (hx : x ∈ u.cells) (e : x.frame = c.frame) : u.table.id = t.table.id ∧ x.cell = c.cell := by
  have hnd := (List.nodup_cons.mp h.distinct.1).2
  unfold tableFrames at hnd
  have key : ∀ {l : List STable}, (l.flatMap fun t => t.anchor :: t.cells.map SCell.frame).Nodup → t ∈ l → u ∈ l → u = t := by
    intro l
    induction l with
    | nil => intro _ h; cases h
    | cons y l ih =>
      intro hn h1 h2
      rw [List.flatMap_cons, List.nodup_append] at hn
      have m1 : c.frame ∈ t.anchor :: t.cells.map SCell.frame := by simp; exact .inr ⟨c, hc, rfl⟩
      have m2 : c.frame ∈ u.anchor :: u.cells.map SCell.frame := by simp; exact .inr ⟨x, hx, e⟩
      rcases List.mem_cons.mp h1 with rfl | h1'
      · rcases List.mem_cons.mp h2 with rfl | h2'
        · rfl
        · exact absurd rfl (hn.2.2 _ m1 _ (List.mem_flatMap.mpr ⟨u, h2', m2⟩))
      · rcases List.mem_cons.mp h2 with rfl | h2'
        · exact absurd rfl (hn.2.2 _ m2 _ (List.mem_flatMap.mpr ⟨t, h1', m1⟩))
        · exact ih hn.2.1 h1' h2'
  have hut := key hnd ht hu
  subst hut
  refine ⟨rfl, ?_⟩
  have hn2 : (u.cells.map SCell.frame).Nodup := by
    have := flatMap_nodup_mem hnd ht
    exact (List.nodup_cons.mp this).2
  obtain ⟨i, hi, ei⟩ := List.getElem_of_mem hc
  obtain ⟨j, hj, ej⟩ := List.getElem_of_mem hx
  have : i = j := by
    have := (List.getElem_inj (i := i) (j := j) (h₀ := by simpa using hi) (h₁ := by simpa using hj) hn2).mp (by
      simp [ei, ej, e])
    exact this
  subst this
  rw [← ei, ← ej]

/-- The cell of a frame, searched in one table. -/
theorem Tabled.cellIn_some (h : Tabled s d f items) (ht : t ∈ tablesOf items) {g : Nat} {v : Nat × Int × Int}
    (hv : s.cellIn t.table g = some v) : ∃ c ∈ t.cells, c.frame = g ∧ v = (t.table.id, c.cell.row, c.cell.column) := by
  unfold Store.cellIn at hv
  obtain ⟨i, hi, hv⟩ := List.exists_of_findSome?_eq_some hv
  have hs := h.table t ht
  obtain ⟨c, hc, rfl⟩ := List.mem_map.mp (hs.cells.mem_iff.mp hi)
  obtain ⟨c1, c2, _⟩ := hs.cell c hc
  rw [c1, Option.bind_some, c2] at hv
  split at hv
  · next e => cases hv; exact ⟨c, hc, by simpa using e, rfl⟩
  · cases hv

theorem Tabled.cellIn_frame (h : Tabled s d f items) (ht : t ∈ tablesOf items) (hc : c ∈ t.cells) :
    s.cellIn t.table c.frame = some (t.table.id, c.cell.row, c.cell.column) := by
  have hs := h.table t ht
  obtain ⟨c1, c2, _⟩ := hs.cell c hc
  unfold Store.cellIn
  apply findSome?_unique
  · refine ⟨c.cell.id, hs.cells.mem_iff.mpr (List.mem_map.mpr ⟨c, hc, rfl⟩), ?_⟩
    rw [c1, Option.bind_some, c2, if_pos rfl]
  · intro i hi w hw
    obtain ⟨x, hx, rfl⟩ := List.mem_map.mp (hs.cells.mem_iff.mp hi)
    obtain ⟨x1, x2, _⟩ := hs.cell x hx
    rw [x1, Option.bind_some, x2] at hw
    split at hw
    · next e =>
      cases hw
      have := h.cell_unique ht hc ht hx (by simpa using e)
      rw [this.2]
    · cases hw

theorem Tabled.scanTables (h : Tabled s d f items) {g : Nat} {v : Nat × Int × Int}
    (hv : (s.tables.keys.findSome? fun k => (s.tables k).bind fun tb => s.cellIn tb g) = some v) :
    ∃ t ∈ tablesOf items, ∃ c ∈ t.cells, c.frame = g ∧ v = (t.table.id, c.cell.row, c.cell.column) := by
  obtain ⟨k, hk, hv⟩ := List.exists_of_findSome?_eq_some hv
  obtain ⟨t, ht, rfl⟩ := List.mem_map.mp (h.onlyTables k ((s.tables.mem k).mp hk))
  have hs := h.table t ht
  rw [hs.table, Option.bind_some] at hv
  obtain ⟨c, hc, e1, e2⟩ := h.cellIn_some ht hv
  exact ⟨t, ht, c, hc, e1, e2⟩

/-- The cell of a paragraph in a cell. -/
theorem Tabled.tableCellOf_cell (h : Tabled s d f items) (ht : t ∈ tablesOf items) (hc : c ∈ t.cells) (hp : p ∈ c.paras) :
    s.tableCellOf p.id = some (t.table.id, c.cell.row, c.cell.column) := by
  have hs := h.table t ht
  obtain ⟨_, _, _, fr, c1, c2, c3, c4, c5, c6⟩ := hs.cell c hc
  unfold Store.tableCellOf
  rw [h.parentFrame_cell ht hc hp, Option.bind_some, c1, Option.bind_some, c3]
  dsimp only
  apply findSome?_unique
  · refine ⟨t.table.id, (s.tables.mem _).mpr (by rw [hs.table]; rfl), ?_⟩
    rw [hs.table, Option.bind_some, h.cellIn_frame ht hc]
  · intro k hk w hw
    obtain ⟨u, hu, rfl⟩ := List.mem_map.mp (h.onlyTables k ((s.tables.mem k).mp hk))
    have hus := h.table u hu
    rw [hus.table, Option.bind_some] at hw
    obtain ⟨x, hx, e1, e2⟩ := h.cellIn_some hu hw
    obtain ⟨e3, e4⟩ := h.cell_unique ht hc hu hx e1
    rw [e2, e3, e4]

/-- A paragraph outside the tables is in no cell. -/
theorem Tabled.tableCellOf_top (h : Tabled s d f items) (hp : p ∈ topParas items) : s.tableCellOf p.id = none := by
  obtain ⟨fr, f1, f2, f3, f4, f5, f6, f7⟩ := h.frame
  unfold Store.tableCellOf
  rw [h.parentFrame_top hp, Option.bind_some, f1, Option.bind_some, f4]
  dsimp only
  cases e : s.tables.keys.findSome? fun k => (s.tables k).bind fun tb => s.cellIn tb f with
  | none => rfl
  | some v =>
    obtain ⟨t, ht, c, hc, e1, _⟩ := h.scanTables e
    have := (List.nodup_cons.mp h.distinct.1).1
    exact absurd (List.mem_flatMap.mpr ⟨t, ht, by simp; exact .inr ⟨c, hc, e1⟩⟩) this

theorem docLen_succ : ∀ {ps : List SPara}, ps ≠ [] → docLen ps + 1 = charTotal ps + ps.length := by
  intro ps
  induction ps with
  | nil => intro h; exact absurd rfl h
  | cons p ps ih =>
    intro _
    cases ps with
    | nil => simp [docLen, charTotal]
    | cons q ps =>
      have := ih (by simp)
      rw [charTotal_cons]
      simp only [docLen, List.length_cons] at this ⊢
      omega

/-- The last position is that of the document's text. -/
theorem Counted.max (hc : Counted d (flowParas items)) (h : Tabled s d f items) : maxCursor s = some (docLen (flowParas items)) := by
  obtain ⟨h1, h2⟩ := hc
  have h3 := docLen_succ h.flow_nonempty
  have h4 : 0 < (flowParas items).length := List.length_pos_iff.mpr h.flow_nonempty
  unfold maxCursor
  rw [h.docIdOf, Option.bind_some, h.document, Option.bind_some, if_neg (by omega)]
  split
  · congr 1; omega
  · congr 1; omega

/-- At every position of a paragraph the cell is that of the paragraph. -/
theorem Reads.tableCellAt {ps : List SPara} (h : Reads s ps) {n k : Nat} (hp : ps[n]? = some p) (hk : k ≤ p.chars.length) :
    s.tableCellAt (paraStart ps n + k) = s.tableCellOf p.id := by
  unfold Store.tableCellAt
  by_cases hc : k < p.chars.length ∨ p.chars = [] ∨ ps[n + 1]? = none
  · rw [(h.blockAt n p k hp hk).1 hc, Option.bind_some, if_neg (by simp only [infoOf]; omega)]
    rfl
  · have hke : k = p.chars.length := by
      by_cases e : k < p.chars.length
      · exact absurd (.inl e) hc
      · omega
    have hne : p.chars ≠ [] := fun e => hc (.inr (.inl e))
    obtain ⟨q, hq⟩ : ∃ q, ps[n + 1]? = some q := by
      cases e : ps[n + 1]? with
      | none => exact absurd (.inr (.inr e)) hc
      | some q => exact ⟨q, rfl⟩
    have hpos := List.length_pos_iff.mpr hne
    rw [(h.blockAt n p k hp hk).2 q hke hne hq, Option.bind_some, if_pos (by
      simp only [infoOf]; rw [paraStart_succ hp]; omega)]
    rw [show paraStart ps n + k - 1 = paraStart ps n + (k - 1) by omega,
      (h.blockAt n p (k - 1) hp (by omega)).1 (.inl (by omega)), Option.bind_some]
    rfl

end Verif
