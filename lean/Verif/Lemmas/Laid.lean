import Verif.Lemmas.TablePasteMain
import Verif.Lemmas.InsertBlocks
import Verif.Lemmas.TableReads
/-
A document while paragraphs and tables are being added: the order of the main frame is not yet brought up to date.
-/
namespace Verif
open Store
variable {s s' : Store} {d d' : Document} {f : Nat} {items items' order order' : List SItem}

/-- The store with another order of the frame `f`. -/
def Store.ordered (s : Store) (f : Nat) (co : List Int) : Store :=
  match s.frames f with
  | none => s
  | some fr => { s with frames := s.frames.insert f { fr with childOrder := co } }

theorem ordered_eq {fr : Frame} (h : s.frames f = some fr) (co : List Int) :
    s.ordered f co = { s with frames := s.frames.insert f { fr with childOrder := co } } := by
  unfold Store.ordered; rw [h]

/-- The items `items`, while the order of the frame is that of `order`. -/
structure Laid (s : Store) (d : Document) (f : Nat) (items order : List SItem) : Prop where
  frame : ∃ fr, s.frames f = some fr ∧ fr.childOrder = order.map SItem.entry
  same : tablesOf order = tablesOf items
  arranged : Arranged (s.ordered f (items.map SItem.entry)) d f items

theorem Laid.finish (h : Laid s d f items items) : Arranged s d f items := by
  obtain ⟨fr, h1, h2⟩ := h.frame
  have ha := h.arranged
  rw [ordered_eq h1] at ha
  have e1 : ({ fr with childOrder := items.map SItem.entry } : Frame) = fr := by rw [← h2]
  rw [e1] at ha
  have : s.frames.insert f fr = s.frames := by
    apply IdMap.ext_keys
    · simp [IdMap.insert, h1]
    · intro i
      rw [IdMap.insert_get]
      split
      · rename_i e; rw [e, h1]
      · rfl
  rw [this] at ha
  exact ha

theorem Arranged.laid (h : Arranged s d f items) : Laid s d f items items := by
  obtain ⟨fr, h1, h2, h3, h4, h5, h6, h7⟩ := h.frame
  refine ⟨⟨fr, h1, h6⟩, rfl, ?_⟩
  rw [ordered_eq h1]
  have e1 : ({ fr with childOrder := items.map SItem.entry } : Frame) = fr := by rw [← h6]
  rw [e1]
  have : s.frames.insert f fr = s.frames := by
    apply IdMap.ext_keys
    · simp [IdMap.insert, h1]
    · intro i
      rw [IdMap.insert_get]
      split
      · rename_i e; rw [e, h1]
      · rfl
  rw [this]
  exact h

theorem Laid.main (h : Laid s d f items order) : ∃ fr, s.frames f = some fr ∧ fr.id = f ∧ fr.parentFrame = none ∧ fr.table = none ∧
    fr.fmtIsBlockquote = none ∧ fr.childOrder = order.map SItem.entry ∧ fr.blocks.Perm ((topParas items).map SPara.id) := by
  obtain ⟨fr, h1, h2⟩ := h.frame
  obtain ⟨fr', g1, g2, g3, g4, g5, g6, g7⟩ := h.arranged.frame
  rw [ordered_eq h1] at g1
  simp only [IdMap.insert_get, if_true, Option.some.injEq] at g1
  subst g1
  exact ⟨fr, h1, g2, g3, g4, g5, h2, g7⟩

theorem Laid.document (h : Laid s d f items order) : s.documents d.id = some d := by
  obtain ⟨fr, h1, _⟩ := h.frame
  have := h.arranged.document
  rw [ordered_eq h1] at this; exact this

theorem Carries.of_ordered {L : List Para} {ps : List SPara} {ts : List Nat} {co : List Int}
    (h : Carries (s.ordered f co) L ps ts) : Carries s L ps ts := by
  unfold Store.ordered at h
  split at h
  · exact h
  · exact ⟨h.text, h.perm, h.keys, h.block, h.formats, h.images, h.fresh, h.clean⟩

theorem Carries.ordered {L : List Para} {ps : List SPara} {ts : List Nat} {co : List Int}
    (h : Carries s L ps ts) : Carries (s.ordered f co) L ps ts := by
  unfold Store.ordered
  split
  · exact h
  · exact ⟨h.text, h.perm, h.keys, h.block, h.formats, h.images, h.fresh, h.clean⟩

theorem Laid.content (h : Laid s d f items order) : ∃ L, Carries s L (flowParas items) ((tablesOf items).map fun t => t.table.id) ∧
    (paras (topParas items)).Sublist L := by
  obtain ⟨L, h1, h2⟩ := h.arranged.content
  exact ⟨L, h1.of_ordered, h2⟩

theorem Laid.frames_iff (h : Laid s d f items order) (g : Nat) : ((s.ordered f (items.map SItem.entry)).frames g).isSome ↔ (s.frames g).isSome := by
  obtain ⟨fr, h1, _⟩ := h.frame
  rw [ordered_eq h1]
  simp only [IdMap.insert_get]
  split
  · rename_i e; subst e; simp [h1]
  · rfl

theorem Laid.other (h : Laid s d f items order) {g : Nat} (hg : g ≠ f) : (s.ordered f (items.map SItem.entry)).frames g = s.frames g := by
  obtain ⟨fr, h1, _⟩ := h.frame
  rw [ordered_eq h1]
  simp [hg]

theorem ordered_rest (s : Store) (f : Nat) (co : List Int) : (s.ordered f co).roots = s.roots ∧ (s.ordered f co).documents = s.documents ∧
    (s.ordered f co).tables = s.tables ∧ (s.ordered f co).tableCells = s.tableCells ∧ (s.ordered f co).counters = s.counters := by
  unfold Store.ordered
  split <;> exact ⟨rfl, rfl, rfl, rfl, rfl⟩

theorem ordered_next (s : Store) (f : Nat) (co : List Int) (k : String) : (s.ordered f co).next k = s.next k := by
  unfold Store.next; rw [(ordered_rest s f co).2.2.2.2]

theorem ShowsTable.of_frames {t : STable} (h : ShowsTable s f t) (h1 : s'.tables = s.tables) (h2 : s'.tableCells = s.tableCells)
    (h3 : ∀ g ∈ t.anchor :: t.cells.map SCell.frame, s'.frames g = s.frames g) : ShowsTable s' f t := by
  constructor
  · rw [h1]; exact h.table
  · exact h.cells
  · exact h.order
  · obtain ⟨x, x1, x2⟩ := h.anchor
    exact ⟨x, by rw [h3 _ (by simp)]; exact x1, x2⟩
  · intro c hc
    obtain ⟨x1, x2, x3, x, x4, x5⟩ := h.cell c hc
    exact ⟨by rw [h2]; exact x1, x2, x3, x, by rw [h3 _ (List.mem_cons_of_mem _ (List.mem_map_of_mem hc))]; exact x4, x5⟩

theorem Laid.apart (h : Laid s d f items order) {t : STable} (ht : t ∈ tablesOf items) {g : Nat} (hg : g ∈ t.anchor :: t.cells.map SCell.frame) :
    g ≠ f := by
  intro e
  have := h.arranged.distinct.1
  rw [List.nodup_cons] at this
  exact this.1 (e ▸ List.mem_flatMap.mpr ⟨t, ht, hg⟩)

theorem Laid.table (h : Laid s d f items order) {t : STable} (ht : t ∈ tablesOf items) : ShowsTable s f t := by
  have r := ordered_rest s f (items.map SItem.entry)
  exact (h.arranged.table t ht).of_frames r.2.2.1.symm r.2.2.2.1.symm fun g hg => (h.other (h.apart ht hg)).symm

theorem Laid.freshFrames (h : Laid s d f items order) (g : Nat) (hg : (s.frames g).isSome) : 0 < g ∧ g < s.next "frame" := by
  have := h.arranged.freshFrames g ((h.frames_iff g).mpr hg)
  rw [ordered_next] at this; exact this

theorem Laid.allFrames (h : Laid s d f items order) : ∀ g ∈ d.frames, (s.frames g).isSome :=
  fun g hg => (h.frames_iff g).mp (h.arranged.allFrames g hg)

theorem Laid.allTables (h : Laid s d f items order) : ∀ t ∈ d.tables, (s.tables t).isSome := by
  intro t ht
  obtain ⟨x, hx, rfl⟩ := List.mem_map.mp (h.arranged.tables.mem_iff.mp ht)
  rw [(h.table hx).table]; rfl

theorem Laid.freshTables (h : Laid s d f items order) (t : Nat) (ht : (s.tables t).isSome) : t < s.next "table" := by
  have r := ordered_rest s f (items.map SItem.entry)
  have := h.arranged.freshTables t (by rw [r.2.2.1]; exact ht)
  rw [ordered_next] at this; exact this

/-- Other paragraphs of the main frame, the tables being the same. -/
theorem Arranged.change (h : Arranged s d f items) (hroots : s'.roots = s.roots)
    (hdoc : s'.documents d.id = some d') (hdid : d'.id = d.id) (hdf : d'.frames = d.frames) (hdt : d'.tables = d.tables)
    (hcontent : ∃ L, Carries s' L (flowParas items') ((tablesOf items').map fun t => t.table.id) ∧ (paras (topParas items')).Sublist L)
    (hframe : ∃ fr, s'.frames f = some fr ∧ fr.id = f ∧ fr.parentFrame = none ∧ fr.table = none ∧
      fr.fmtIsBlockquote = none ∧ fr.childOrder = items'.map SItem.entry ∧ fr.blocks.Perm ((topParas items').map SPara.id))
    (hf : ∀ g, g ≠ f → s'.frames g = s.frames g) (ht : s'.tables = s.tables) (hc : s'.tableCells = s.tableCells)
    (hnf : s'.next "frame" = s.next "frame") (hnt : s'.next "table" = s.next "table") (hnc : s'.next "table_cell" = s.next "table_cell")
    (hsame : tablesOf items' = tablesOf items) (hpos : ∀ p ∈ flowParas items', 0 < p.id) (hne : topParas items' ≠ []) :
    Arranged s' d' f items' := by
  have e1 : tableFrames items' = tableFrames items := by unfold tableFrames; rw [hsame]
  have e2 : cellsOf items' = cellsOf items := by unfold cellsOf; rw [hsame]
  have hsome : ∀ g, (s'.frames g).isSome → (s.frames g).isSome := by
    intro g hg
    by_cases e : g = f
    · obtain ⟨fr, h1, _⟩ := h.frame; rw [e, h1]; rfl
    · rw [hf g e] at hg; exact hg
  constructor
  · obtain ⟨r, r', x1, x2, x3, x4⟩ := h.root
    exact ⟨r, r', by rw [hroots]; exact x1, by rw [hroots]; exact x2, by rw [hdid]; exact x3, by rw [hdid]; exact x4⟩
  · rw [hdid]; exact hdoc
  · exact hcontent
  · exact hframe
  · intro t htm
    rw [hsame] at htm
    refine (h.table t htm).of_frames ht hc ?_
    intro g hg
    apply hf
    intro e
    have := h.distinct.1
    rw [List.nodup_cons] at this
    exact this.1 (e ▸ List.mem_flatMap.mpr ⟨t, htm, hg⟩)
  · rw [hdf, e1]; exact h.frames
  · rw [e1, e2]; exact h.distinct
  · intro g hg; rw [e1]; exact h.onlyFrames g (hsome g hg)
  · rw [hdt, hsame]; exact h.tables
  · intro g hg; rw [hnf]; exact h.freshFrames g (hsome g hg)
  · rw [ht, hnt]; exact h.freshTables
  · rw [hc, hnc]; exact h.freshCells
  · rw [ht, hsame]; exact h.onlyTables
  · rw [hc, e2]; exact h.onlyCells
  · exact hpos
  · exact hne

/-- The same while the order of the frame is not up to date. -/
theorem Laid.change {fr : Frame} {bs : List Nat} (h : Laid s d f items order) (hfr : s.frames f = some fr) (hroots : s'.roots = s.roots)
    (hdoc : s'.documents d.id = some d') (hdid : d'.id = d.id) (hdf : d'.frames = d.frames) (hdt : d'.tables = d.tables)
    (hcontent : ∃ L, Carries s' L (flowParas items') ((tablesOf items').map fun t => t.table.id) ∧ (paras (topParas items')).Sublist L)
    (hframe : s'.frames f = some { fr with blocks := bs, childOrder := order'.map SItem.entry }) (hbs : bs.Perm ((topParas items').map SPara.id))
    (hf : ∀ g, g ≠ f → s'.frames g = s.frames g) (ht : s'.tables = s.tables) (hc : s'.tableCells = s.tableCells)
    (hnf : s'.next "frame" = s.next "frame") (hnt : s'.next "table" = s.next "table") (hnc : s'.next "table_cell" = s.next "table_cell")
    (hsame : tablesOf items' = tablesOf items) (horder : tablesOf order' = tablesOf items') (hpos : ∀ p ∈ flowParas items', 0 < p.id)
    (hne : topParas items' ≠ []) : Laid s' d' f items' order' := by
  refine ⟨⟨_, hframe, rfl⟩, horder, ?_⟩
  have r := ordered_rest s f (items.map SItem.entry)
  have r' := ordered_rest s' f (items'.map SItem.entry)
  obtain ⟨fr', g1, g2, g3, g4, g5, g6, g7⟩ := h.main
  rw [hfr, Option.some.injEq] at g1
  subst g1
  obtain ⟨L, l1, l2⟩ := hcontent
  refine h.arranged.change (by rw [r.1, r'.1]; exact hroots) (by rw [r'.2.1]; exact hdoc) hdid hdf hdt ⟨L, l1.ordered, l2⟩ ?_ ?_
    (by rw [r.2.2.1, r'.2.2.1]; exact ht) (by rw [r.2.2.2.1, r'.2.2.2.1]; exact hc) (by rw [ordered_next, ordered_next]; exact hnf)
    (by rw [ordered_next, ordered_next]; exact hnt) (by rw [ordered_next, ordered_next]; exact hnc) hsame hpos hne
  · rw [ordered_eq hframe]
    exact ⟨{ fr with blocks := bs, childOrder := items'.map SItem.entry }, by simp, g2, g3, g4, g5, rfl, hbs⟩
  · intro g hg
    rw [h.other hg, ordered_eq hframe]
    simp [hg, hf g hg]

/-! ### The text -/

/-- A paragraph enters the text at its end. -/
theorem insertEnd_repr {st : RopeSt} {L : List Para} {new : Nat} (t : List Char) (h : Repr st L) (hL : L ≠ [])
    (hnew : Marker.block new ∉ L.map Prod.fst) :
    ∃ st', ropeInsertBlockAt st st.idx.total new t = some st' ∧ Repr st' (L ++ [(.block new, t)]) ∧
      st'.idx.total = st.idx.total + 1 + utf8Len t := by
  have hlast : L = L.dropLast ++ [L.getLast hL] := (List.dropLast_concat_getLast hL).symm
  generalize L.getLast hL = x at hlast
  generalize L.dropLast = A at hlast
  subst hlast
  obtain ⟨m, c⟩ := x
  obtain ⟨st1, e1, h1⟩ := insertBlockAt_repr (new := new) t h hnew
  have ht : st.idx.total = span A + utf8Len c := by rw [h.focus.total]; simp
  have h1' : Repr st1 ((A ++ [(m, c)]) ++ [(.block new, t)]) := by simpa using h1
  refine ⟨st1, by rw [ht]; exact e1, h1', ?_⟩
  rw [h1'.focus.total, ht]; simp; omega

end Verif
