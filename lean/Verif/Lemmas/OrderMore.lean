import Verif.Lemmas.OrderEdit
import Verif.Model.FormattedText
import Verif.Model.Formatting
import Verif.Model.BoxFormats
import Verif.Model.Frames
import Verif.Model.Images
/-
Formatted text, lists, formats, frames and images keep a store in good order.
-/
namespace Verif

/-! ### Formatted text -/

theorem walkSequential_some {s : Store} {p : Int} {i : Nat} {run : Int} {ids : List Nat}
    {b : Block} {j : Nat} {o : Int} (hw : s.walkSequential p i run ids = some (some (b, j, o))) :
    ∃ i, s.blocks i = some b := by
  induction ids generalizing i run with
  | nil => cases hw
  | cons c bs ih =>
    simp only [Store.walkSequential, Option.bind_eq_some_iff] at hw
    obtain ⟨b', hb', len, _, hw⟩ := hw
    split at hw
    · cases hw; exact ⟨_, hb'⟩
    · exact ih hw

theorem findSequential_some {s : Store} {p : Int} {ids : List Nat} {b : Block} {j : Nat} {o : Int}
    (hw : s.findSequential ids p = some (b, j, o)) : ∃ i, s.blocks i = some b := by
  simp only [Store.findSequential] at hw
  split at hw
  · cases hw
  · simp only [Option.bind_eq_some_iff] at hw
    obtain ⟨r, hr, hw⟩ := hw
    split at hw
    · cases hw; exact walkSequential_some hr
    · simp only [Option.bind_eq_some_iff, Option.map_eq_some_iff] at hw
      obtain ⟨c, ⟨i, _, hc⟩, ps, _, he⟩ := hw
      cases he; exact ⟨_, hc⟩

theorem Fine.insertFormattedAt {s t : Store} (h : Fine s) {b : Block} (hb : Here s b) {o : Int} {text : List Char}
    {fmt : CharFormat} {n : Nat} (hi : s.insertFormattedAt b o text fmt = some (n, t)) : Grows s t := by
  simp only [Store.insertFormattedAt, Option.bind_eq_some_iff, Option.map_eq_some_iff] at hi
  obtain ⟨content, _, r, _, he⟩ := hi
  cases he
  generalize logicalOffsetToByte content (s.imagesOf b.id) o = off
  have g1 := h.updateBlock hb.fit
  have g2 := g1.trans (g1.fine.editRuns (g1.keep .block b.id rfl hb.here) fun runs =>
    spliceRange (shiftRunsForInsert runs off (utf8Len text)) off (off + utf8Len text)
      [⟨off, off + utf8Len text, fmt⟩])
  split
  · have g3 := g2.trans (g2.fine.editImages (g2.keep .block b.id rfl hb.here) fun im =>
      shiftImagesForInsert im off (utf8Len text))
    exact g3.trans (g3.fine.withText r)
  · exact g2.trans (g2.fine.withText r)

theorem Fine.formattedSelection {s t : Store} (h : Fine s) {dto : FormattedDto} {n : Int}
    {u : Store.InsertUndo} (hi : s.formattedSelection dto = some (t, n, u)) :
    Grows s t ∧ u = .selection s.snapshot := by
  simp only [Store.formattedSelection, Option.bind_eq_some_iff] at hi
  obtain ⟨did, hdid, doc, hdoc, ids, hids, hi⟩ := hi
  split at hi
  · cases hi
  simp only [Option.bind_eq_some_iff] at hi
  obtain ⟨⟨b, i1, p⟩, hb, ⟨b2, i2, p2⟩, _, hi⟩ := hi
  split at hi
  · cases hi
  simp only [Option.bind_eq_some_iff] at hi
  obtain ⟨⟨removed, s1⟩, hs1, bl, hbl, ⟨off, s3⟩, hs3, doc2, hdoc2, he⟩ := hi
  obtain ⟨bi, hbi⟩ := findSequential_some hb
  have g1 := h.deleteRange (.of h hbi) hs1
  have g2 := g1.updateDoc (d := { doc with characterCount := doc.characterCount - removed }) rfl h hdoc rfl
  have g3 := g2.trans (g2.fine.insertFormattedAt (.of g2.fine hbl) hs3)
  have g4 := g3.trans ((Leads.refl (K := fun _ => true) g3.fine).updateDoc
    (d := { doc2 with characterCount := doc2.characterCount + dto.text.length }) rfl g3.fine hdoc2 rfl)
  cases he
  exact ⟨g4, rfl⟩

theorem Fine.formattedSimple {s t : Store} (h : Fine s) {dto : FormattedDto} {n : Int}
    {u : Store.InsertUndo} (hi : s.formattedSimple dto = some (t, n, u)) :
    Grows s t ∧ ∃ d i, u = .simple d ∧ s.blocks i = some d.originalBlock ∧ d.blockId = d.originalBlock.id := by
  simp only [Store.formattedSimple, Option.bind_eq_some_iff] at hi
  obtain ⟨did, hdid, doc, hdoc, ids, hids, hi⟩ := hi
  split at hi
  · cases hi
  simp only [Option.bind_eq_some_iff] at hi
  obtain ⟨⟨b, i1, p⟩, hb, len, _, ⟨off, s1⟩, hs1, he⟩ := hi
  obtain ⟨bi, hbi⟩ := findSequential_some hb
  have g1 := h.insertFormattedAt (.of h hbi) hs1
  have g2 := g1.updateDoc (d := { doc with characterCount := doc.characterCount + dto.text.length }) rfl h hdoc rfl
  cases he
  exact ⟨g2, _, _, rfl, hbi, rfl⟩

theorem Fine.insertFormatted {s t : Store} (h : Fine s) {dto : FormattedDto} {n : Int}
    {u : Store.InsertUndo} (hi : s.insertFormatted dto = some (t, n, u)) : Grows s t := by
  simp only [Store.insertFormatted] at hi
  split at hi
  · exact (h.formattedSelection hi).1
  · exact (h.formattedSimple hi).1

theorem Fine.cursorFormatted {s t : Store} (h : Fine s) {x y : Nat} {text : List Char} {fmt : TextFormat} {n : Int}
    (hi : s.cursorFormatted x y text fmt = some (t, n)) : Leads notBlocks s t := by
  simp only [Store.cursorFormatted] at hi
  split at hi
  · rename_i r hr
    obtain ⟨r1, r2, r3⟩ := r
    cases hi
    exact .of (h.insertFormatted hr)
  · split at hi
    · cases hi
    · simp only [Option.bind_eq_some_iff] at hi
      obtain ⟨⟨s1, r, u⟩, hd, hi⟩ := hi
      split at hi
      · cases hi
      · simp only [Option.map_eq_some_iff] at hi
        obtain ⟨⟨r1, r2, r3⟩, hr, he⟩ := hi
        cases he
        have g := (h.deleteText hd).1
        exact g.trans (.of (g.fine.insertFormatted hr))

/-! ### Lists -/

theorem Fine.assignList {s t : Store} (h : Fine s) {l : Nat} {lo hi : Int} {bs : List Block}
    (ha : Store.assignList l lo hi bs s = some t) : Grows s t := by
  induction bs generalizing s with
  | nil => cases ha; exact .refl h
  | cons b bs ih =>
    simp only [Store.assignList, Option.bind_eq_some_iff] at ha
    obtain ⟨len, _, ha⟩ := ha
    split at ha
    · simp only [Option.bind_eq_some_iff] at ha
      obtain ⟨u, hu, ha⟩ := ha
      have g := (h.setBlockList hu).grows
      exact g.trans (ih g.fine ha)
    · exact ih h ha

theorem Fine.createListCmd {s t : Store} (h : Fine s) {style : ListStyle} {p a : Int} {l : Nat} {u : Snapshot}
    (hi : s.createList style p a = some (t, l, u)) : Grows s t ∧ u = s.snapshot := by
  simp only [Store.createList, Option.bind_eq_some_iff, Option.map_eq_some_iff] at hi
  obtain ⟨did, hdid, doc, hdoc, fid, hfid, ⟨lid, s1⟩, hs1, s2, hs2, he⟩ := hi
  have g := (h.createList rfl hs1).grows
  cases he
  exact ⟨g.trans (g.fine.assignList hs2), rfl⟩

theorem Fine.addBlockToList {s t : Store} (h : Fine s) {b l : Nat} {u : Snapshot}
    (hi : s.addBlockToList b l = some (t, u)) : Grows s t ∧ u = s.snapshot := by
  simp only [Store.addBlockToList, Option.bind_eq_some_iff, Option.map_eq_some_iff] at hi
  obtain ⟨did, hdid, doc, hdoc, bl, hbl, li, hli, s2, hs2, he⟩ := hi
  cases he
  exact ⟨(h.setBlockList hs2).grows, rfl⟩

theorem Fine.removeBlockFromList {s t : Store} (h : Fine s) {b : Nat} {u : Snapshot}
    (hi : s.removeBlockFromList b = some (t, u)) : Leads (fun k => k ≠ .list) s t ∧ u = s.snapshot := by
  simp only [Store.removeBlockFromList, Option.bind_eq_some_iff] at hi
  obtain ⟨did, hdid, doc, hdoc, bl, hbl, li, hli, s2, hs2, hi⟩ := hi
  have g := (h.setBlockList hs2).grows
  split at hi
  · cases hi; exact ⟨.of g, rfl⟩
  · simp only [Option.map_eq_some_iff] at hi
    obtain ⟨s3, hs3, he⟩ := hi
    cases he
    exact ⟨(Leads.of g).trans (g.fine.removeListEntity hs3), rfl⟩

theorem Fine.setListFormat {s t : Store} (h : Fine s) {l : Nat} {dto : Store.ListFormatDto} {u : Snapshot}
    (hi : s.setListFormat l dto = some (t, u)) : Grows s t ∧ u = s.snapshot := by
  simp only [Store.setListFormat, Option.bind_eq_some_iff, Option.map_eq_some_iff] at hi
  obtain ⟨did, hdid, doc, hdoc, li, hli, he⟩ := hi
  have hid : li.id = l := h.tidy.keyed .list l li hli
  cases he
  refine ⟨h.over (k := .list) (by decide) (i := li.id) (o := li) (by rw [hid]; exact hli) rfl ?_, rfl⟩
  exact ⟨by simp [owns], by simp [mentions], trivial⟩

theorem Fine.insertList {s t : Store} (h : Fine s) {style : ListStyle} {p : Int} {l : Nat} {np : Int} {u : Snapshot}
    (hi : s.insertList style p = some (t, l, np, u)) : Grows s t ∧ u = s.snapshot := by
  simp only [Store.insertList, Option.bind_eq_some_iff] at hi
  obtain ⟨did, hdid, doc, hdoc, fid, hfid, frame, hframe, ⟨b, i, o⟩, hb, ⟨lid, s1⟩, hs1, newPos, hnp,
    ⟨new, s2⟩, hs2, he⟩ := hi
  have hbs := h.hereSorted (s.frameBlocks fid)
  have m1 := h.createList rfl hs1
  have m2 := createBlock_made hs2 m1.grows.fine rfl (by
    intro l' hl'
    cases hl'
    exact show ((s1.tab .list) lid).isSome = true by rw [m1.here]; rfl)
  have g2 := m1.grows.trans m2.grows
  have hf1 : s1.frames fid = some frame := by
    rw [show s1.frames = s.frames from m1.others .frame (by decide) (by decide) (by decide)]; exact hframe
  obtain ⟨bl, hbl, hn, hsub⟩ := m2.owned frame hf1
  have hid : frame.id = fid := frame_id h hframe
  have g3 := g2.trans (g2.fine.updateFrame
    (f := { frame with childOrder := List.insertIdx frame.childOrder (min (i + 1) frame.childOrder.length) (new : Int) })
    (o := { frame with blocks := bl }) (by rw [← hbl]; exact congrArg s2.frames hid) (by
      intro j hj hp
      rcases mem_insertIdx_or hj with rfl | hj
      · simpa using hn
      · exact hsub _ (h.orders hframe j hj hp)))
  have g4 := g3.trans (g3.fine.shiftStored _ 1 (fit_drop hbs rfl g3 (i + 1)))
  have g5 := g4.updateDoc (d := { doc with blockCount := doc.blockCount + 1 }) rfl h hdoc rfl
  cases he
  exact ⟨g5, rfl⟩

/-! ### Formats -/

theorem Fine.putFormats {s : Store} (h : Fine s) {i : Nat} (hb : (s.blocks i).isSome = true) (f : BlockFmt CharFormat) :
    Grows s (s.putFormats i f) := by
  unfold Store.putFormats
  have g1 := h.editRuns hb fun _ => f.runs
  dsimp only
  split
  · exact g1.trans (g1.fine.editImages (g1.keep .block i rfl hb) fun _ => f.imgs)
  · exact g1

theorem Fine.formatOne {s t : Store} (h : Fine s) {m : CharFormat → CharFormat} {lo hi : Int} {b : Block} (hb : Here s b)
    {is : List Store.BlockInverse} (hf : Store.formatOne m lo hi s b = some (t, is)) :
    Grows s t ∧ ∀ i ∈ is, (s.blocks i.block).isSome = true := by
  simp only [Store.formatOne, Option.bind_eq_some_iff] at hf
  obtain ⟨len, _, hf⟩ := hf
  split at hf
  · cases hf; exact ⟨.refl h, fun i hi => by cases hi⟩
  simp only [Option.bind_eq_some_iff, Option.map_eq_some_iff] at hf
  obtain ⟨⟨bs, _⟩, _, ⟨be, _⟩, _, hf⟩ := hf
  split at hf
  · cases hf; exact ⟨.refl h, fun i hi => by cases hi⟩
  · cases hf
    refine ⟨h.putFormats hb.here _, fun i hi => ?_⟩
    rw [List.mem_singleton] at hi
    subst hi; exact hb.here

theorem Fine.formatLoop {s t : Store} (h : Fine s) {m : CharFormat → CharFormat} {lo hi : Int} {bs : List Block}
    (hb : ∀ b ∈ bs, Here s b) {is : List Store.BlockInverse} (hf : Store.formatLoop m lo hi bs s = some (t, is)) :
    Grows s t ∧ ∀ i ∈ is, (t.blocks i.block).isSome = true := by
  induction bs generalizing s is with
  | nil => cases hf; exact ⟨.refl h, fun i hi => by cases hi⟩
  | cons b bs ih =>
    simp only [Store.formatLoop, Option.bind_eq_some_iff, Option.map_eq_some_iff] at hf
    obtain ⟨⟨s1, i1⟩, h1, ⟨s2, i2⟩, h2, he⟩ := hf
    obtain ⟨g1, e1⟩ := h.formatOne (hb b (by simp)) h1
    cases he
    obtain ⟨g2, e2⟩ := ih g1.fine (fun c hc => (hb c (by simp [hc])).later g1) h2
    refine ⟨g1.trans g2, fun i hi => ?_⟩
    rcases List.mem_append.mp hi with hi | hi
    · exact g2.keep .block _ rfl (g1.keep .block _ rfl (e1 i hi))
    · exact e2 i hi

theorem Fine.sortedHere {s : Store} (h : Fine s) (did : Nat) : ∀ b ∈ s.sortedBlocks did, Here s b := by
  intro b hb
  simp only [Store.sortedBlocks, mem_sortByKey] at hb
  exact h.hereBlocks _ b hb

theorem Fine.formatText {s t : Store} (h : Fine s) {m : CharFormat → CharFormat} {p a : Int}
    {is : List Store.BlockInverse} (hf : s.formatText m p a = some (t, is)) :
    Grows s t ∧ ∀ i ∈ is, (t.blocks i.block).isSome = true := by
  simp only [Store.formatText, Option.bind_eq_some_iff] at hf
  obtain ⟨did, _, doc, _, hf⟩ := hf
  split at hf
  · cases hf; exact ⟨.refl h, fun i hi => by cases hi⟩
  · exact h.formatLoop (h.sortedHere did) hf

theorem Fine.undoFormat {s : Store} (h : Fine s) {is : List Store.BlockInverse}
    (hi : ∀ i ∈ is, (s.blocks i.block).isSome = true) : Grows s (s.undoFormat is) := by
  unfold Store.undoFormat
  induction is generalizing s with
  | nil => exact .refl h
  | cons i is ih =>
    have g := h.putFormats (hi i (by simp)) (applyInverse ⟨s.runsOf i.block, s.imagesOf i.block⟩ i.inv)
    exact g.trans (ih g.fine fun j hj => g.keep .block _ rfl (hi j (by simp [hj])))

theorem toFormat_here {s : Store} {st : RopeSt} {dto : Store.BlockFormatDto} {lo hi : Int} {bs bs' : List Block}
    (hb : ∀ b ∈ bs, Here s b) (hf : Store.blocksToFormat st dto lo hi bs = some bs') : ∀ b ∈ bs', Here s b := by
  induction bs generalizing bs' with
  | nil => cases hf; intro b hb; cases hb
  | cons b bs ih =>
    simp only [Store.blocksToFormat, Option.bind_eq_some_iff, Option.map_eq_some_iff] at hf
    obtain ⟨len, _, rest, hr, he⟩ := hf
    have := ih (fun c hc => hb c (by simp [hc])) hr
    split at he
    · subst he
      intro c hc
      rcases List.mem_cons.mp hc with rfl | hc
      · exact (hb b (by simp)).like rfl rfl
      · exact this c hc
    · subst he; exact this

theorem Fine.setBlockFormat {s t : Store} (h : Fine s) {dto : Store.BlockFormatDto} {p a : Int} {u : Snapshot}
    (hf : s.setBlockFormat dto p a = some (t, u)) : Grows s t ∧ u = s.snapshot := by
  simp only [Store.setBlockFormat, Option.bind_eq_some_iff, Option.map_eq_some_iff] at hf
  obtain ⟨did, _, doc, _, bs, hbs, he⟩ := hf
  cases he
  exact ⟨h.updateBlocks bs fun b hb => (toFormat_here (h.sortedHere did) hbs b hb).fit, rfl⟩

theorem Fine.setTableFormat {s t : Store} (h : Fine s) {i : Nat} {fmt : TableFormat} {u : Snapshot}
    (hf : s.setTableFormat i fmt = some (t, u)) : Grows s t ∧ u = s.snapshot := by
  simp only [Store.setTableFormat, Option.bind_eq_some_iff, Option.map_eq_some_iff] at hf
  obtain ⟨did, _, doc, _, x, hx, he⟩ := hf
  cases he
  have hid : x.id = i := h.tidy.keyed .table i x hx
  refine ⟨h.updateTable ?_, rfl⟩
  show (s.tables x.id).isSome = true
  rw [hid, hx]; rfl

theorem Fine.setCellFormat {s t : Store} (h : Fine s) {i : Nat} {fmt : CellFormat} {u : Snapshot}
    (hf : s.setCellFormat i fmt = some (t, u)) : Grows s t ∧ u = s.snapshot := by
  simp only [Store.setCellFormat, Option.bind_eq_some_iff, Option.map_eq_some_iff] at hf
  obtain ⟨did, _, doc, _, x, hx, he⟩ := hf
  cases he
  have hid : x.id = i := h.tidy.keyed .tableCell i x hx
  refine ⟨h.updateCell ?_, rfl⟩
  show (s.tableCells x.id).isSome = true
  rw [hid, hx]; rfl

theorem Fine.setFrameFormat {s t : Store} (h : Fine s) {i : Nat} {fmt : FrameFormat} {u : Snapshot}
    (hf : s.setFrameFormat i fmt = some (t, u)) : Grows s t ∧ u = s.snapshot := by
  simp only [Store.setFrameFormat, Option.bind_eq_some_iff, Option.map_eq_some_iff] at hf
  obtain ⟨did, _, doc, _, x, hx, he⟩ := hf
  cases he
  have hid : x.id = i := frame_id h hx
  refine ⟨h.updateFrame (o := x) ?_ ?_, rfl⟩
  · show s.frames x.id = some x
    rw [hid, hx]
  · show ∀ j ∈ x.childOrder, _
    exact h.orders hx

/-! ### Frames, images -/

theorem findFrameAt_some {s : Store} {p : Int} {fs : List Nat} {f : Frame} {i : Nat}
    (hf : s.findFrameAt p fs = some (some (f, i))) : ∃ k, s.frames k = some f := by
  induction fs with
  | nil => cases hf
  | cons g fs ih =>
    simp only [Store.findFrameAt] at hf
    split at hf
    · exact ih hf
    · rename_i frame hfr
      split at hf
      · simp only [Option.bind_eq_some_iff] at hf
        obtain ⟨len, _, hf⟩ := hf
        split at hf
        · simp only [Option.map_eq_some_iff] at hf
          obtain ⟨k, _, he⟩ := hf
          cases he; exact ⟨_, hfr⟩
        · exact ih hf
      · exact ih hf

theorem Fine.linkFrame {s t : Store} (h : Fine s) {g : Nat} {parent : Option (Frame × Nat)}
    (hl : s.linkFrame g parent = some t) : Grows s t := by
  cases parent with
  | none => cases hl; exact .refl h
  | some x =>
    obtain ⟨p0, i⟩ := x
    simp only [Store.linkFrame, Option.map_eq_some_iff] at hl
    obtain ⟨p, hp, he⟩ := hl
    subst he
    have hid : p.id = p0.id := frame_id h hp
    refine h.updateFrame (o := p) (by rw [← hp]; exact congrArg s.frames hid) ?_
    intro j hj h0
    rcases mem_insertIdx_or hj with rfl | hj
    · omega
    · exact h.orders hp j hj h0

theorem Fine.insertFrame {s t : Store} (h : Fine s) {p : Int} {g : Nat} {u : Snapshot}
    (hi : s.insertFrame p = some (t, g, u)) : Grows s t ∧ u = s.snapshot := by
  simp only [Store.insertFrame, Option.bind_eq_some_iff] at hi
  obtain ⟨did, hdid, doc, hdoc, parent, hparent, ⟨g', s1⟩, hs1, created, hcr, ⟨b, s2⟩, hs2, s4, hs4, he⟩ := hi
  have hpar : ∀ q, parent.map (fun x => x.1.id) = some q → (s.frames q).isSome = true := by
    intro q hq
    obtain ⟨⟨f, i⟩, rfl, rfl⟩ := Option.map_eq_some_iff.mp hq
    obtain ⟨k, hk⟩ := findFrameAt_some hparent
    show (s.frames f.id).isSome = true
    rw [frame_id h hk, hk]; rfl
  have m1 := h.createFrame rfl rfl rfl (fun q hq => hpar q hq) (fun q hq => by cases hq) hs1
  have hcr' : created = { parentFrame := parent.map fun x => x.1.id, id := g' } := by
    have := m1.here
    rw [show s1.tab .frame g' = _ from hcr] at this
    exact Option.some.inj this
  have m2 := createBlock_made hs2 m1.grows.fine rfl (by intro l hl; cases hl)
  have g2 := m1.grows.trans m2.grows
  obtain ⟨bl, hbl, hn, _⟩ := m2.owned created hcr
  have g3 := g2.trans (g2.fine.updateFrame (f := { created with childOrder := [(b : Int)] })
    (o := { created with blocks := bl })
    (by rw [← hbl]; exact congrArg s2.frames (show created.id = g' by rw [hcr'])) (by
      intro j hj hp
      rw [List.mem_singleton] at hj
      subst hj; simpa using hn))
  have g4 := g3.trans (g3.fine.linkFrame hs4)
  have g5 := g4.updateDoc (d := { doc with blockCount := doc.blockCount + 1 }) rfl h hdoc rfl
  cases he
  refine ⟨?_, rfl⟩
  split
  · exact g5.trans (g5.fine.withText _)
  · exact g5

theorem Fine.insertImage {s t : Store} (h : Fine s) {dto : Store.ImageDto} {n : Int} {e : Nat} {u : Snapshot}
    (hi : s.insertImage dto = some (t, n, e, u)) : Grows s t ∧ u = s.snapshot := by
  simp only [Store.insertImage] at hi
  split at hi
  · cases hi
  split at hi
  · cases hi
  simp only [Option.bind_eq_some_iff, Option.map_eq_some_iff] at hi
  obtain ⟨did, hdid, doc, hdoc, fid, hfid, ⟨b, i, o⟩, hb, content, _, segs, _, st, _, he⟩ := hi
  have hbs := h.hereSorted (s.frameBlocks fid)
  have hb' := find_is_here hbs hb
  have g1 := h.editImages hb'.here (Store.putAnchor ⟨Store.imageByte o 0 0 segs, dto.name, dto.width, dto.height, 100, {}⟩)
  have g2 := g1.trans (g1.fine.withText st)
  have g3 := g2.trans (g2.fine.updateBlock (hb'.later g2).fit)
  have g4 := g3.trans (g3.fine.shiftStored _ 1 (fit_drop hbs rfl g3 (i + 1)))
  have g5 := g4.updateDoc (d := { doc with characterCount := doc.characterCount + 1 }) rfl h hdoc rfl
  cases he
  exact ⟨g5, rfl⟩

end Verif
