import Verif.Model.PlainText
import Verif.Spec.PlainText
import Verif.Lemmas.Sole
import Verif.Lemmas.Editing
namespace Verif

variable {s : Store} {d : Document} {f : Nat} {ps : List SPara}

/-! ### Lines -/

theorem unixText_eq (t : List Char) : Store.replaceCr (Store.replaceCrLf t) = unixText t := by
  fun_induction unixText t with
  | case1 => rfl
  | case2 cs ih => simp [Store.replaceCrLf, Store.replaceCr] at ih ⊢; exact ih
  | case3 cs hne ih =>
    rw [Store.replaceCrLf.eq_2 _ _ (by intro cs' _ e2; exact hne cs' e2)]
    simp [Store.replaceCr] at ih ⊢; exact ih
  | case4 c cs h1 h2 ih =>
    have hc : c ≠ '\r' := fun e => h2 e
    rw [Store.replaceCrLf.eq_2 _ _ (by intro _ e; exact absurd e hc)]
    simp [Store.replaceCr, hc] at ih ⊢; exact ih

theorem splitLines_ne (t : List Char) : Store.splitLines t ≠ [] := by
  cases t with
  | nil => simp [Store.splitLines]
  | cons c cs =>
    simp only [Store.splitLines]
    split
    · simp
    · split <;> simp

theorem joinNl_cons (c : List Char) {cs : List (List Char)} (h : cs ≠ []) :
    joinNl (c :: cs) = c ++ '\n' :: joinNl cs := by
  cases cs with
  | nil => exact absurd rfl h
  | cons x cs => rfl

theorem joinNl_splitLines (t : List Char) : joinNl (Store.splitLines t) = t := by
  induction t with
  | nil => rfl
  | cons c cs ih =>
    simp only [Store.splitLines]
    split
    · rename_i h
      rw [joinNl_cons _ (splitLines_ne cs), ih, h]; rfl
    · cases hs : Store.splitLines cs with
      | nil => exact absurd hs (splitLines_ne cs)
      | cons l ls =>
        rw [hs] at ih
        simp only
        cases ls with
        | nil => simp only [joinNl] at ih ⊢; rw [ih]
        | cons x ls =>
          rw [joinNl_cons _ (by simp)] at ih ⊢
          rw [← ih]; rfl

theorem splitLines_noNl (t : List Char) : ∀ l ∈ Store.splitLines t, '\n' ∉ l := by
  induction t with
  | nil => simp [Store.splitLines]
  | cons c cs ih =>
    simp only [Store.splitLines]
    split
    · intro l hl
      rcases List.mem_cons.mp hl with rfl | hl
      · simp
      · exact ih l hl
    · rename_i hc
      cases hs : Store.splitLines cs with
      | nil => exact absurd hs (splitLines_ne cs)
      | cons x ls =>
        rw [hs] at ih
        intro l hl
        rcases List.mem_cons.mp hl with rfl | hl
        · have := ih x (by simp)
          simp only [List.mem_cons, not_or]
          exact ⟨fun e => hc e.symm, this⟩
        · exact ih l (by simp [hl])

/-! ### Removing the old frame -/

theorem keys_one {α : Type} {m : IdMap α} {k : Nat} (h1 : (m k).isSome)
    (h2 : ∀ i v, m i = some v → i = k) : m.keys = [k] := by
  have hk : k ∈ m.keys := (m.mem k).mpr h1
  have hall : ∀ i ∈ m.keys, i = k := by
    intro i hi
    obtain ⟨v, hv⟩ := Option.isSome_iff_exists.mp ((m.mem i).mp hi)
    exact h2 i v hv
  have hn := m.nodup
  cases hkk : m.keys with
  | nil => rw [hkk] at hk; simp at hk
  | cons a l =>
    rw [hkk] at hall hn
    have ha := hall a (by simp)
    subst ha
    cases l with
    | nil => rfl
    | cons b l =>
      have hb := hall b (by simp)
      subst hb
      simp at hn

/-- The store once all frames are gone. -/
structure Bare (s0 s : Store) (d : Document) : Prop where
  roots : s.roots = s0.roots
  document : s.documents d.id = some { d with frames := [] }
  docs : ∀ i x, s.documents i = some x → i = d.id ∧ x.id = d.id
  frames : ∀ g, s.frames g = none
  blocks : ∀ i, s.blocks i = none
  runs : ∀ i, s.formatRuns i = none
  images : ∀ i, s.blockImages i = none
  counters : s.counters = s0.counters
  cells : ∀ i, s.tableCells i = none

theorem Flat.removeFrames (h : Flat s d f ps) (hs : Sole d.id f s) :
    ∃ s1, Store.removeFrames [f] s = some s1 ∧ Bare s s1 d := by
  obtain ⟨fr, hfr, hfid, hfc, hfb⟩ := h.frame
  have hfk : s.frames.keys = [f] := keys_one (by rw [hfr]; rfl) fun i v hv => (hs.frames i v hv).1
  have hdk : s.documents.keys = [d.id] := keys_one (by rw [h.document]; rfl) fun i v hv => (hs.docs i v hv).1
  obtain ⟨p, hp⟩ := List.exists_mem_of_ne_nil _ h.nonempty
  have hpb : p.id ∈ fr.blocks := hfb.mem_iff.mpr (List.mem_map_of_mem hp)
  have hnall : ¬ (fr.blocks.all fun i => (s.blocks i).isNone) = true := by
    intro hall
    rw [List.all_eq_true] at hall
    have h1 := hall _ hpb
    obtain ⟨b, hb, _⟩ := h.block p hp
    rw [hb] at h1; simp at h1
  have howner : s.blockOwners fr.blocks = [(f, fr.blocks)] := by
    unfold Store.blockOwners
    rw [hfk]
    have hfb' : s.frameBlocks f = fr.blocks := by simp [Store.frameBlocks, hfr]
    have : (fr.blocks.any fun b => fr.blocks.contains b) = true := by
      rw [List.any_eq_true]; exact ⟨p.id, hpb, by simpa using hpb⟩
    simp only [List.filter_cons, List.filter_nil, hfb', this, if_true, List.map_cons, List.map_nil]
  have hfilter : (fr.blocks.filter fun b => !fr.blocks.contains b) = [] := by
    rw [List.filter_eq_nil_iff]
    intro b hb
    simp [hb]
  have hstrip : ((s.tableRemoveBlocks fr.blocks).frames f) = some (Store.stripFrame fr.blocks fr) := by
    simp [Store.tableRemoveBlocks, hfr]
  generalize hs1 : s.tableRemoveBlocks fr.blocks = s1 at hstrip
  have hrb : s.removeBlocks fr.blocks = some { s1 with
      frames := s1.frames.insert f { Store.stripFrame fr.blocks fr with blocks := [] } } := by
    unfold Store.removeBlocks
    rw [if_neg hnall, howner, hs1]
    simp only [Store.rewriteOwners, hfilter, Store.setFrameBlocks, List.all_nil, if_true, hstrip,
      Option.bind_some]
  have hdoc1 : s1.documents = s.documents := by rw [← hs1]; rfl
  have hmemid : ∀ i, i ∈ fr.blocks ↔ i ∈ ps.map SPara.id := fun i => hfb.mem_iff
  have hblk : ∀ i, s1.blocks i = none := by
    intro i
    rw [← hs1]
    simp only [Store.tableRemoveBlocks, Sole.erase_get_foldl]
    split
    · rfl
    · rename_i hi
      exact h.absent i (fun hh => hi ((hmemid i).mpr hh))
  have hsole1 : Sole d.id f s1 := by rw [← hs1]; exact hs.tableRemoveBlocks _
  have hruns : ∀ i, s1.formatRuns i = none := by
    intro i
    cases hr : s1.formatRuns i with
    | none => rfl
    | some v =>
      have := hsole1.runs i (by rw [hr]; rfl)
      rw [hblk i] at this; simp at this
  have himgs : ∀ i, s1.blockImages i = none := by
    intro i
    cases hr : s1.blockImages i with
    | none => rfl
    | some v =>
      have := hsole1.images i (by rw [hr]; rfl)
      rw [hblk i] at this; simp at this
  have hdf : s1.docFrames d.id = [f] := by
    simp [Store.docFrames, hdoc1, h.document, h.frames]
  have hd2 : ({ s1 with
      frames := s1.frames.insert f { Store.stripFrame fr.blocks fr with blocks := [] } } : Store).documents =
      s.documents := hdoc1
  have hdf2 : Store.docFrames { s1 with
      frames := s1.frames.insert f { Store.stripFrame fr.blocks fr with blocks := [] } } d.id = [f] := hdf
  have hfr2 : ∀ g, g ≠ f → ({ s1 with
      frames := s1.frames.insert f { Store.stripFrame fr.blocks fr with blocks := [] } } : Store).frames g = none := by
    intro g hg
    simp only [IdMap.insert_get, hg, if_false]
    cases hgg : s1.frames g with
    | none => rfl
    | some v => exact absurd (hsole1.frames g v hgg).1 hg
  have hb2 : ∀ i, ({ s1 with
      frames := s1.frames.insert f { Store.stripFrame fr.blocks fr with blocks := [] } } : Store).blocks i = none := hblk
  have hr2 : ∀ i, ({ s1 with
      frames := s1.frames.insert f { Store.stripFrame fr.blocks fr with blocks := [] } } : Store).formatRuns i = none := hruns
  have hi2 : ∀ i, ({ s1 with
      frames := s1.frames.insert f { Store.stripFrame fr.blocks fr with blocks := [] } } : Store).blockImages i = none := himgs
  have hro2 : ({ s1 with
      frames := s1.frames.insert f { Store.stripFrame fr.blocks fr with blocks := [] } } : Store).roots = s.roots := by
    rw [← hs1]; rfl
  have hcl2 : ∀ i, ({ s1 with
      frames := s1.frames.insert f { Store.stripFrame fr.blocks fr with blocks := [] } } : Store).tableCells i = none :=
    hsole1.cells
  have hc2 : ({ s1 with
      frames := s1.frames.insert f { Store.stripFrame fr.blocks fr with blocks := [] } } : Store).counters = s.counters := by
    rw [← hs1]; rfl
  generalize ({ s1 with
      frames := s1.frames.insert f { Store.stripFrame fr.blocks fr with blocks := [] } } : Store) = s2 at *
  have hown : ((s2.documents.keys.filter fun x => (s2.docFrames x).contains f).map fun x => (x, s2.docFrames x)) =
      [(d.id, [f])] := by
    rw [hd2, hdk]
    simp [hdf2]
  have hfil : ([f].filter fun b => decide (b ≠ f)) = [] := by simp
  have hrd : Store.rewriteDocs f [(d.id, [f])] (s2.tableRemoveFrame f) =
      some { s2.tableRemoveFrame f with
        documents := (s2.tableRemoveFrame f).documents.insert d.id { d with frames := [] } } := by
    simp only [Store.rewriteDocs, hfil, Store.setDocFrames, List.all_nil, if_true]
    have : (s2.tableRemoveFrame f).documents d.id =
        some { d with frames := d.frames.filter fun i => i ≠ f } := by
      simp only [Store.tableRemoveFrame, IdMap.mapValues_get, hd2, h.document, Option.map_some]
    rw [this]; rfl
  refine ⟨{ s2.tableRemoveFrame f with
        documents := (s2.tableRemoveFrame f).documents.insert d.id { d with frames := [] } }, ?_, ?_⟩
  · unfold Store.removeFrames Store.removeFrame
    rw [hfr]
    simp only [hrb, Option.bind_some, hown, hrd, Store.removeFrames]
  constructor
  · exact hro2
  · simp
  · intro i x hx
    simp only [IdMap.insert_get] at hx
    split at hx
    · rename_i hi; cases hx; exact ⟨hi, rfl⟩
    · simp only [Store.tableRemoveFrame, IdMap.mapValues_get, Option.map_eq_some_iff, hd2] at hx
      obtain ⟨x0, h1, h2⟩ := hx
      subst h2
      exact hs.docs i x0 h1
  · intro g
    simp only [Store.tableRemoveFrame, IdMap.mapValues_get, IdMap.erase_get]
    split
    · rfl
    · rename_i hg
      rw [hfr2 g hg]; rfl
  · exact hb2
  · exact hr2
  · exact hi2
  · exact hc2
  · intro i
    simp only [Store.tableRemoveFrame, IdMap.mapValues_get, hcl2 i, Option.map_none]

/-! ### Adding the lines -/

/-- The paragraphs of the lines `ls`, with ids from `n` on. -/
def linesFrom : Nat → List (List Char) → List SPara
  | _, [] => []
  | n, l :: ls => plainPara n l :: linesFrom (n + 1) ls

theorem linesFrom_length (n : Nat) (ls : List (List Char)) : (linesFrom n ls).length = ls.length := by
  induction ls generalizing n with
  | nil => rfl
  | cons l ls ih => simp [linesFrom, ih]

theorem linesFrom_text (n : Nat) (ls : List (List Char)) : (linesFrom n ls).map SPara.text = ls := by
  induction ls generalizing n with
  | nil => rfl
  | cons l ls ih => simp [linesFrom, ih, plainPara, SPara.text]

theorem linesFrom_look (n : Nat) (ls : List (List Char)) :
    (linesFrom n ls).map (fun p => ({ p with id := 0 } : SPara)) = ls.map (plainPara 0) := by
  induction ls generalizing n with
  | nil => rfl
  | cons l ls ih => simp only [linesFrom, List.map_cons, ih]; rfl

/-- The stored position of every paragraph is where it starts. -/
def Placed (s : Store) (ps : List SPara) : Prop :=
  ∀ L p R, ps = L ++ p :: R → ∃ b, s.blocks p.id = some b ∧ b.documentPosition = charsBefore (paras L)

/-- The store while lines are being added. -/
structure Filling (s : Store) (d : Document) (f : Nat) (ps : List SPara) : Prop where
  shows_ : Shows s d ps
  sole : Sole d.id f s
  frame : ∃ fr, s.frames f = some fr ∧ fr.id = f ∧ fr.blocks = ps.map SPara.id
  positive : ∀ p ∈ ps, 0 < p.id
  placed : Placed s ps
  plain : ∀ fr, s.frames f = some fr → fr.table = none ∧ fr.fmtIsBlockquote = none

theorem styledOk_plain (l : List Char) : StyledOk [] (styled l none) := by
  constructor
  · exact ⟨⟨by simp, by simp⟩, trivial, by simp⟩
  · intro i
    rw [byteFmts_styled]
    simp only [fmtAt, List.getElem?_replicate]
    split <;> rfl

theorem Filling.step (h : Filling s d f ps) (l : List Char) (pos : Int)
    (hpos : pos = charsBefore (paras ps)) (hn : 0 < s.next "block") :
    ∃ s1, s.createBlock { documentPosition := pos } f (-1) = some (s.next "block", s1) ∧
      ∀ r, r = (if ps.isEmpty then s1.text else ropeInsertBlockBoundary s1.text) →
      Filling (s1.withText (ropeAppendBlock r (s.next "block") l)) d f (ps ++ [plainPara (s.next "block") l]) ∧
      (s1.withText (ropeAppendBlock r (s.next "block") l)).next "block" = s.next "block" + 1 := by
  obtain ⟨fr, hfr, hfid, hfb⟩ := h.frame
  have hS := h.shows_
  have hall : ∀ i ∈ fr.blocks, (s.blocks i).isSome := by
    intro i hi
    rw [hfb] at hi
    obtain ⟨p, hp, rfl⟩ := List.mem_map.mp hi
    obtain ⟨b, hb, _⟩ := hS.block p hp
    rw [hb]; rfl
  have e1 := createBlock_new (blk := { documentPosition := pos }) hfr rfl hall
  obtain ⟨hsole, _, _⟩ := h.sole.createBlock rfl e1
  have hne : ∀ p ∈ ps, p.id ≠ s.next "block" := fun p hp => by have := hS.fresh p hp; omega
  have hnotin : s.next "block" ∉ ps.map SPara.id := by
    intro hh
    obtain ⟨p, hp, e⟩ := List.mem_map.mp hh
    exact hne p hp e
  have habs := hS.absent _ hnotin
  have hr0 : s.formatRuns (s.next "block") = none := by
    cases hr : s.formatRuns (s.next "block") with
    | none => rfl
    | some v => have := h.sole.runs _ (by rw [hr]; rfl); rw [habs] at this; simp at this
  have hi0 : s.blockImages (s.next "block") = none := by
    cases hr : s.blockImages (s.next "block") with
    | none => rfl
    | some v => have := h.sole.images _ (by rw [hr]; rfl); rw [habs] at this; simp at this
  refine ⟨_, e1, ?_⟩
  intro r hr
  have hnext : ∀ q : RopeSt, (({ s with
      counters := (s.nextId "block").2.counters
      blocks := s.blocks.insert (s.next "block") { ({ documentPosition := pos } : Block) with id := s.next "block" }
      frames := s.frames.insert f { fr with blocks := fr.blocks ++ [s.next "block"] } } : Store).withText q).next "block"
        = s.next "block" + 1 := by
    intro q; simp [Store.next, Store.withText, Store.nextId]
  refine ⟨⟨⟨hS.root, hS.document, ?_, ?_, ?_, ?_, ?_, ?_, ?_⟩, hsole.withText _, ?_, ?_, ?_, ?_⟩, hnext _⟩
  · have hpar : paras (ps ++ [plainPara (s.next "block") l]) = paras ps ++ [(.block (s.next "block"), l)] := by
      simp [paras, plainPara, SPara.text]
    rw [hpar]
    have hT : Repr s.text (paras ps) := hS.text
    show Repr (ropeAppendBlock r _ l) _
    subst hr
    cases ps with
    | nil => exact appendFirst_repr l hT
    | cons q qs =>
      refine appendNext_repr l hT (by simp [paras]) ?_
      intro hm
      simp only [paras, List.map_map, List.mem_map] at hm
      obtain ⟨x, hx, e⟩ := hm
      simp only [Function.comp_apply, Marker.block.injEq] at e
      exact hne x hx e
  · show (s.blocks.insert _ _).keys.Perm _
    simp only [IdMap.insert, habs, Option.isSome_none, Bool.false_eq_true, if_false, List.map_append]
    exact hS.keys.append_right _
  · intro p hp
    rcases List.mem_append.mp hp with hp | hp
    · obtain ⟨b, hb, hib⟩ := hS.block p hp
      refine ⟨b, ?_, hib⟩
      simp only [Store.withText, IdMap.insert_get, hne p hp, if_false]; exact hb
    · simp only [List.mem_singleton] at hp
      subst hp
      refine ⟨{ id := s.next "block", documentPosition := pos }, ?_, rfl⟩
      simp only [Store.withText, IdMap.insert_get, plainPara, if_true]
  · intro i hi
    simp only [List.map_append, List.map_cons, List.map_nil, List.mem_append, List.mem_singleton, not_or] at hi
    have : i ≠ s.next "block" := hi.2
    simp only [Store.withText, IdMap.insert_get, this, if_false]
    exact hS.absent i hi.1
  · intro p hp
    rcases List.mem_append.mp hp with hp | hp
    · exact hS.formats p hp
    · simp only [List.mem_singleton] at hp
      subst hp
      show StyledOk ((s.formatRuns (s.next "block")).getD []) _
      rw [hr0]; exact styledOk_plain l
  · intro p hp
    rcases List.mem_append.mp hp with hp | hp
    · exact hS.images p hp
    · simp only [List.mem_singleton] at hp
      subst hp
      show (s.blockImages (s.next "block")).getD [] = []
      rw [hi0]; rfl
  · intro p hp
    rw [hnext]
    rcases List.mem_append.mp hp with hp | hp
    · have := hS.fresh p hp; omega
    · simp only [List.mem_singleton] at hp
      subst hp
      show s.next "block" < _
      omega
  · refine ⟨{ fr with blocks := fr.blocks ++ [s.next "block"] }, ?_, hfid, ?_⟩
    · simp only [Store.withText, IdMap.insert_get, if_true]
    · simp [hfb, plainPara]
  · intro p hp
    rcases List.mem_append.mp hp with hp | hp
    · exact h.positive p hp
    · simp only [List.mem_singleton] at hp
      subst hp; exact hn
  · intro L p R e
    rcases List.eq_nil_or_concat R with rfl | ⟨R', q, rfl⟩
    · obtain ⟨e1, e2⟩ := List.append_inj' e rfl
      subst e1
      simp only [List.cons.injEq, and_true] at e2
      subst e2
      refine ⟨{ id := s.next "block", documentPosition := pos }, ?_, hpos⟩
      simp only [Store.withText, IdMap.insert_get, plainPara, if_true]
    · have e' : ps ++ [plainPara (s.next "block") l] = (L ++ p :: R') ++ [q] := by
        rw [e]; simp
      obtain ⟨e1, e2⟩ := List.append_inj' e' rfl
      obtain ⟨b, hb, hbp⟩ := h.placed L p R' e1
      refine ⟨b, ?_, hbp⟩
      have := hne p (by rw [e1]; simp)
      simp only [Store.withText, IdMap.insert_get, this, if_false]; exact hb
  · intro gr hg
    simp only [Store.withText, IdMap.insert_get, if_true, Option.some.injEq] at hg
    rw [← hg]; exact h.plain fr hfr

theorem charsBefore_paras_append (L : List SPara) (p : SPara) :
    charsBefore (paras (L ++ [p])) = charsBefore (paras L) + (p.chars.length + 1) := by
  simp [charsBefore, paras, SPara.text]

theorem charTotal_linesFrom (n : Nat) (ls : List (List Char)) :
    charTotal (linesFrom n ls) = (ls.map List.length).sum := by
  induction ls generalizing n with
  | nil => rfl
  | cons l ls ih =>
    simp only [linesFrom, charTotal_cons, List.map_cons, List.sum_cons, ih]
    simp [plainPara, styled]

theorem Filling.lines (ls : List (List Char)) : ∀ {s : Store} {ps : List SPara} {first : Bool} {pos : Int},
    Filling s d f ps → 0 < s.next "block" → first = ps.isEmpty →
    (ls ≠ [] → pos = charsBefore (paras ps)) →
    ∃ s', Store.importLines f first pos ls s =
        some ((linesFrom (s.next "block") ls).map SPara.id, (ls.map List.length).sum, s') ∧
      Filling s' d f (ps ++ linesFrom (s.next "block") ls) := by
  induction ls with
  | nil => intro s ps first pos h hn hf hpos; exact ⟨s, rfl, by simpa [linesFrom] using h⟩
  | cons l ls ih =>
    intro s ps first pos h hn hf hpos
    obtain ⟨s1, e1, e2⟩ := h.step l pos (hpos (by simp)) hn
    obtain ⟨h2, hn2⟩ := e2 _ rfl
    generalize hs2 : s1.withText (ropeAppendBlock (if ps.isEmpty then s1.text else ropeInsertBlockBoundary s1.text)
      (s.next "block") l) = s2 at h2 hn2
    obtain ⟨s', e3, h3⟩ := ih (first := false)
      (pos := pos + l.length + (if ls.isEmpty then 0 else 1)) h2 (by omega)
      (by simp) (by
        intro hls
        have : ls.isEmpty = false := by cases ls <;> simp_all
        rw [charsBefore_paras_append, hpos (by simp), this]
        simp [plainPara, styled]
        omega)
    refine ⟨s', ?_, ?_⟩
    · unfold Store.importLines
      rw [e1]
      simp only [Option.bind_some, hf, hs2, e3, Option.map_some, hn2, linesFrom, List.map_cons, List.sum_cons]
      rfl
    · rw [hn2] at h3
      simpa [linesFrom] using h3

/-- Setting the frame's order and the counts once the lines are there. -/
theorem Filling.finish {d : Document} (h : Filling s d f ps) (hdf : d.frames = [f]) (hdt : d.tables = [])
    (hne : ps ≠ []) {fr : Frame} (hfr : s.frames f = some fr) {c k : Int}
    (hc : c = charTotal ps) (hk : k = ps.length) :
    Flat ((s.updateFrame { fr with childOrder := (ps.map SPara.id).map fun i : Nat => (i : Int) }).updateDocument
        { d with characterCount := c, blockCount := k })
      (countsOf { d with characterCount := 0, blockCount := 0 } ps) f ps ∧
    Sole d.id f ((s.updateFrame { fr with childOrder := (ps.map SPara.id).map fun i : Nat => (i : Int) }).updateDocument
        { d with characterCount := c, blockCount := k }) ∧
    Placed ((s.updateFrame { fr with childOrder := (ps.map SPara.id).map fun i : Nat => (i : Int) }).updateDocument
        { d with characterCount := c, blockCount := k }) ps := by
  obtain ⟨fr', hfr', hfid, hfb⟩ := h.frame
  rw [hfr] at hfr'; cases hfr'
  have hdeq : countsOf { d with characterCount := 0, blockCount := 0 } ps =
      { d with characterCount := c, blockCount := k } := by
    subst hc hk; simp [countsOf]
  rw [hdeq]
  have hS := h.shows_
  refine ⟨⟨⟨hS.root, ?_, hS.text, hS.keys, hS.block, hS.absent, hS.formats, hS.images, hS.fresh⟩,
    hdf, hdt, ?_, ?_, h.positive, hne, ?_⟩, ?_, h.placed⟩
  · have := hS.document
    simp only [Store.updateDocument, Store.updateFrame, IdMap.insert_get]
    rw [if_pos trivial, this]; rfl
  · refine ⟨{ fr with childOrder := (ps.map SPara.id).map fun i : Nat => (i : Int) }, ?_, hfid, ?_, ?_⟩
    · simp only [Store.updateDocument, Store.updateFrame, IdMap.insert_get, hfid]
      rw [if_pos trivial, hfr]; rfl
    · simp [List.map_map, Function.comp_def]
    · rw [hfb]
  · intro g fr2 hg hgf
    have hg' : s.frames g = some fr2 := by
      simpa [Store.updateDocument, Store.updateFrame, hfid, hgf] using hg
    exact absurd (h.sole.frames g fr2 hg').1 hgf
  · intro gr hg
    simp only [Store.updateDocument, Store.updateFrame, IdMap.insert_get, hfid, if_true, Option.some.injEq] at hg
    rw [hfr] at hg
    rw [← hg]; exact h.plain fr hfr
  · refine Sole.updateDocument ?_ ?_
    · refine Sole.updateFrame h.sole ?_
      exact hfid
    · rfl

/-! ### The whole import -/

theorem createFrame_bare {s0 : Store} (h : Bare s0 s d) :
    s.createFrame {} d.id (-1) = some (s.next "frame", { s with
      counters := (s.nextId "frame").2.counters
      frames := s.frames.insert (s.next "frame") { id := s.next "frame" }
      documents := s.documents.insert d.id { d with frames := [s.next "frame"] } }) := by
  unfold Store.createFrame Store.insertNewFrame
  rw [if_pos rfl]
  simp only [Option.bind_some]
  have hdf : Store.docFrames { (s.nextId "frame").2 with
      frames := (s.nextId "frame").2.frames.insert (s.nextId "frame").1 { id := (s.nextId "frame").1 } } d.id = [] := by
    simp [Store.docFrames, Store.nextId, h.document]
  have hins : Store.insertAtIndex [] (-1) (s.nextId "frame").1 = [s.next "frame"] := by
    unfold Store.insertAtIndex; rw [if_neg (by omega)]; rfl
  unfold Store.setDocFrames
  rw [hdf, hins, if_pos]
  · simp only [Store.nextId, h.document, Option.map_some]
    rfl
  · simp [Store.nextId, Store.next]

/-- Importing a text into a document of one frame. -/
theorem Flat.import (h : Flat s d f ps) (hs : Sole d.id f s) (t : List Char) :
    ∃ s', s.importPlainText t = some s' ∧
      Flat s' (countsOf { d with frames := [s.next "frame"], characterCount := 0, blockCount := 0 }
          (linesFrom (s.next "block") (Store.splitLines (unixText t))))
        (s.next "frame") (linesFrom (s.next "block") (Store.splitLines (unixText t))) ∧
      Sole d.id (s.next "frame") s' ∧
      Placed s' (linesFrom (s.next "block") (Store.splitLines (unixText t))) := by
  obtain ⟨s1, e1, hb⟩ := h.removeFrames hs
  have e2 := createFrame_bare hb
  have hnf : s1.next "frame" = s.next "frame" := by simp [Store.next, hb.counters]
  have hnb : s1.next "block" = s.next "block" := by simp [Store.next, hb.counters]
  rw [hnf] at e2
  have hdid : s.docId = some d.id := h.docId
  have hdf : s.docFrames d.id = [f] := by simp [Store.docFrames, h.document, h.frames]
  generalize hs2 : (Store.withText { s1 with
      counters := (s1.nextId "frame").2.counters
      frames := s1.frames.insert (s.next "frame") { id := s.next "frame" }
      documents := s1.documents.insert d.id { d with frames := [s.next "frame"] } } ropeReset) = s2
  have hpos : 0 < s.next "block" := by
    obtain ⟨p, hp⟩ := List.exists_mem_of_ne_nil _ h.nonempty
    have := h.fresh p hp
    omega
  have hnb2 : s2.next "block" = s.next "block" := by
    rw [← hs2, ← hnb]
    simp [Store.next, Store.withText, Store.nextId]
  have hroot := h.root
  have hF : Filling s2 { d with frames := [s.next "frame"] } (s.next "frame") [] := by
    subst hs2
    refine ⟨⟨?_, ?_, C12_reset', ?_, ?_, ?_, ?_, ?_, ?_⟩, ⟨?_, ?_, ?_, ?_, ?_, ?_⟩, ?_, ?_, ?_, ?_⟩
    · show ∃ r r', s1.roots 1 = some r ∧ s1.roots r.id = some r' ∧ r'.document = d.id ∧ d.id ≠ 0
      rw [hb.roots]; exact hroot
    · simp [Store.withText]
    · have hk : s1.blocks.keys = [] := by
        rw [List.eq_nil_iff_forall_not_mem]
        intro i hi
        have := (s1.blocks.mem i).mp hi
        rw [hb.blocks i] at this; simp at this
      show s1.blocks.keys.Perm _
      rw [hk]; exact .refl _
    · simp
    · intro i _; exact hb.blocks i
    · simp
    · simp
    · simp
    · intro i b hi; have := hb.blocks i; simp only [Store.withText] at hi; rw [this] at hi; cases hi
    · intro i x hx
      simp only [Store.withText, IdMap.insert_get] at hx
      split at hx
      · rename_i hi; cases hx; exact ⟨hi, rfl⟩
      · exact hb.docs i x hx
    · intro g fr hg
      simp only [Store.withText, IdMap.insert_get, hb.frames g] at hg
      split at hg
      · rename_i hi; cases hg; exact ⟨hi, rfl⟩
      · cases hg
    · intro i hi
      simp only [Store.withText, hb.runs i] at hi; simp at hi
    · intro i hi
      simp only [Store.withText, hb.images i] at hi; simp at hi
    · exact hb.cells
    · refine ⟨{ id := s.next "frame" }, ?_, rfl, rfl⟩
      simp [Store.withText]
    · simp
    · intro L p R e; simp at e
    · intro gr hg
      simp only [Store.withText, IdMap.insert_get, if_true, Option.some.injEq] at hg
      rw [← hg]; exact ⟨rfl, rfl⟩
  obtain ⟨s3, e3, hF3⟩ := Filling.lines (d := { d with frames := [s.next "frame"] }) (f := s.next "frame")
    (Store.splitLines (unixText t)) (first := true) (pos := 0) hF (by omega) rfl (by simp [charsBefore, paras])
  rw [hnb2, List.nil_append] at hF3
  rw [hnb2] at e3
  generalize hls : Store.splitLines (unixText t) = ls at e3 hF3 ⊢
  have hlsne : ls ≠ [] := by rw [← hls]; exact splitLines_ne _
  generalize hqs : linesFrom (s.next "block") ls = qs at e3 hF3 ⊢
  have hct : charTotal qs = (ls.map List.length).sum := by rw [← hqs]; exact charTotal_linesFrom _ _
  have hlen : qs.length = ls.length := by rw [← hqs]; exact linesFrom_length _ _
  obtain ⟨fr, hfr, hfid, hfb⟩ := hF3.frame
  have hdoc3 := hF3.shows_.document
  have hqne : qs ≠ [] := by intro e; rw [e] at hlen; cases ls <;> simp_all
  obtain ⟨a1, a2, a3⟩ := hF3.finish rfl h.tables hqne hfr
    (c := ((ls.map List.length).sum : Nat)) (k := (ls.length : Nat)) (by omega) (by omega)
  refine ⟨(s3.updateFrame { fr with childOrder := (qs.map SPara.id).map fun i : Nat => (i : Int) }).updateDocument
    { d with frames := [s.next "frame"], characterCount := ((ls.map List.length).sum : Nat), blockCount := (ls.length : Nat) },
    ?_, a1, a2, a3⟩
  unfold Store.importPlainText
  rw [hdid, Option.bind_some, hdf, e1, Option.bind_some, e2, Option.bind_some]
  simp only [unixText_eq, hs2, hls, e3, Option.bind_some, hfr]
  have : (s3.updateFrame { fr with childOrder := (qs.map SPara.id).map fun i : Nat => (i : Int) }).documents d.id =
      some { d with frames := [s.next "frame"] } := hdoc3
  simp only [this, Option.map_some]
where
  C12_reset' : Repr ropeReset (paras []) := reset_repr

/-- A new document has one empty paragraph in one frame. -/
theorem newStore_flat : ∃ s, Store.newStore = some s ∧
    Flat s { id := 1, frames := [1] } 1 [⟨1, [], {}⟩] ∧ Sole 1 1 s ∧ Placed s [⟨1, [], {}⟩] := by
  refine ⟨_, rfl, ⟨⟨⟨_, _, rfl, rfl, rfl, by decide⟩, rfl, ?_, ?_, ?_, ?_, ?_, ?_, ?_⟩, rfl, rfl,
    ⟨_, rfl, rfl, rfl, ?_⟩, ?_, ?_, ?_, ?_⟩, ⟨?_, ?_, ?_, ?_, ?_, ?_⟩, ?_⟩
  · exact appendFirst_repr (id := 1) [] reset_repr
  · exact .refl _
  · intro p hp; simp at hp; subst hp; exact ⟨_, rfl, rfl⟩
  · intro i hi; simp at hi
    show (if i = 1 then _ else _) = none
    rw [if_neg hi]; rfl
  · intro p hp; simp at hp; subst hp; exact styledOk_plain []
  · intro p hp; simp at hp; subst hp; rfl
  · intro p hp; simp at hp; subst hp; decide
  · exact .refl _
  · intro g fr hg hgf
    have : (if g = 1 then _ else if g = 1 then _ else if g = 1 then _ else none) = some fr := hg
    rw [if_neg hgf, if_neg hgf, if_neg hgf] at this; cases this
  · intro p hp; simp at hp; subst hp; decide
  · simp
  · intro fr hg; cases hg; exact ⟨rfl, rfl⟩
  · intro i b hb
    by_cases hi : i = 1
    · subst hi; cases hb; rfl
    · have : (if i = 1 then _ else none) = some b := hb
      rw [if_neg hi] at this; cases this
  · intro i b hb
    by_cases hi : i = 1
    · subst hi; cases hb; exact ⟨rfl, rfl⟩
    · have : (if i = 1 then _ else if i = 1 then _ else none) = some b := hb
      rw [if_neg hi, if_neg hi] at this; cases this
  · intro i b hb
    by_cases hi : i = 1
    · subst hi; cases hb; exact ⟨rfl, rfl⟩
    · have : (if i = 1 then _ else if i = 1 then _ else if i = 1 then _ else none) = some b := hb
      rw [if_neg hi, if_neg hi, if_neg hi] at this; cases this
  · intro i hi; cases hi
  · intro i hi; cases hi
  · intro i; rfl
  · intro L p R e
    cases L with
    | nil => simp only [List.nil_append, List.cons.injEq] at e; rw [← e.1]; exact ⟨_, rfl, rfl⟩
    | cons q L => simp at e

/-- A document of two paragraphs with right counts exists: new, then "ab\ncd" loaded. -/
theorem sample_flat : ∃ s, Flat s (countsOf { id := 1, frames := [2] } [plainPara 2 ['a', 'b'], plainPara 3 ['c', 'd']]) 2
    [plainPara 2 ['a', 'b'], plainPara 3 ['c', 'd']] ∧ Sole 1 2 s := by
  obtain ⟨s, e1, e2, e3, _⟩ := newStore_flat
  obtain ⟨s', g1, g2, g3, _⟩ := e2.import e3 ['a', 'b', '\n', 'c', 'd']
  have hf : s.next "frame" = 2 := by cases e1; rfl
  have hb : s.next "block" = 2 := by cases e1; rfl
  rw [hf, hb] at g2
  rw [hf] at g3
  exact ⟨s', g2, g3⟩

end Verif
