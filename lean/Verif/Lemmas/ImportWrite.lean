import Verif.Spec.ImportMarkup
import Verif.Lemmas.TableReads
import Verif.Lemmas.TableMake
import Verif.Lemmas.PasteState
import Verif.Lemmas.Import
/- Writing paragraphs and table marks one after the other. -/
namespace Verif
variable {s s' : Store} {L : List Para} {ps : List SPara} {ts : List Nat} {p : SPara} {a b : List SChar}
open Store

/-! ### Formats -/

theorem spanFormat_look (code : Bool) (x : ParsedSpan) :
    spanLook code x = if spanFormat code x = {} then none else some (spanFormat code x) := by
  obtain ⟨t, b, i, u, k, c, h⟩ := x
  unfold spanLook spanFormat
  cases h <;> cases b <;> cases i <;> cases u <;> cases k <;> cases c <;> cases code <;> simp

theorem spanRuns_spec (code : Bool) (xs : List ParsedSpan) (off : Nat) :
    Ordered (spanRuns code off xs) ∧
    (∀ r ∈ spanRuns code off xs, off ≤ r.bs ∧ r.be ≤ off + utf8Len ((spansChars code xs).map Prod.fst)) ∧
    ∀ i, fmtAt (spanRuns code off xs) (off + i) = ((byteFmts (spansChars code xs))[i]?).join := by
  induction xs generalizing off with
  | nil => exact ⟨⟨by simp [spanRuns], by simp [spanRuns]⟩, by simp [spanRuns], by simp [spanRuns, spansChars, byteFmts]⟩
  | cons x xs ih =>
    have e0 : spansChars code (x :: xs) = styled x.text (spanLook code x) ++ spansChars code xs := rfl
    rw [e0]
    simp only [spanRuns]
    by_cases hz : utf8Len x.text = 0
    · rw [if_pos hz]
      have : x.text = [] := utf8Len_eq_zero.mp hz
      rw [this]
      simpa [styled] using ih off
    rw [if_neg hz]
    obtain ⟨h2, h3, h4⟩ := ih (off + utf8Len x.text)
    have hlast : ∀ i, ¬ i < utf8Len x.text → fmtAt (spanRuns code (off + utf8Len x.text) xs) (off + i) =
        ((byteFmts (styled x.text (spanLook code x) ++ spansChars code xs))[i]?).join := by
      intro i hi
      rw [byteFmts_append, byteFmts_styled, List.getElem?_append_right (by simp; omega)]
      have := h4 (i - utf8Len x.text)
      rw [show off + utf8Len x.text + (i - utf8Len x.text) = off + i by omega] at this
      rw [this]; simp
    have hfirst : ∀ i, i < utf8Len x.text →
        ((byteFmts (styled x.text (spanLook code x) ++ spansChars code xs))[i]?).join = spanLook code x := by
      intro i hi
      rw [byteFmts_append, byteFmts_styled, List.getElem?_append_left (by simpa using hi)]
      simp [List.getElem?_replicate_of_lt hi]
    by_cases hd : spanFormat code x = {}
    · rw [if_pos hd]
      refine ⟨h2, ?_, ?_⟩
      · intro r hr
        have := h3 r hr
        simp only [List.map_append, utf8Len_append, styled_fst]
        omega
      · intro i
        by_cases hi : i < utf8Len x.text
        · rw [hfirst i hi, spanFormat_look, if_pos hd]
          rw [fmtAt_eq_none]
          intro r hr hin
          have := (h3 r hr).1
          omega
        · exact hlast i hi
    · rw [if_neg hd]
      refine ⟨⟨?_, ?_⟩, ?_, ?_⟩
      · intro r hr
        rcases List.mem_cons.mp hr with rfl | hr
        · simp; omega
        · exact h2.nonempty r hr
      · rw [List.pairwise_cons]
        exact ⟨fun r hr => (h3 r hr).1, h2.sorted⟩
      · intro r hr
        simp only [List.map_append, utf8Len_append, styled_fst]
        rcases List.mem_cons.mp hr with rfl | hr
        · simp
        · have := h3 r hr
          omega
      · intro i
        rw [fmtAt_cons]
        simp only []
        by_cases hi : i < utf8Len x.text
        · rw [if_pos (by omega), hfirst i hi, spanFormat_look, if_neg hd]
        · rw [if_neg (by omega)]; exact hlast i hi

theorem spansChars_text (code : Bool) (xs : List ParsedSpan) :
    (spansChars code xs).map Prod.fst = xs.flatMap ParsedSpan.text := by
  unfold spansChars
  rw [List.map_flatMap]
  congr 1
  funext x
  simp

theorem formatRuns_styled (code : Bool) (xs : List ParsedSpan) :
    (formatRunsFromSpans code xs).1 = (spansChars code xs).map Prod.fst ∧
    StyledOk (formatRunsFromSpans code xs).2 (spansChars code xs) := by
  obtain ⟨h2, h3, h4⟩ := spanRuns_spec code xs 0
  have hle : ∀ r ∈ spanRuns code 0 xs, r.bs ≤ r.be := fun r hr => Nat.le_of_lt (h2.nonempty r hr)
  refine ⟨(spansChars_text code xs).symm, ⟨ordered_coalesce _ h2, coalesced_coalesce _, ?_⟩, ?_⟩
  · intro r hr
    obtain ⟨b, hb, e⟩ := (coalesce_mem _ r hr).2
    have := (h3 b hb).2
    omega
  · intro i
    show fmtAt (coalesce (spanRuns code 0 xs)) i = _
    rw [fmtAt_coalesce _ hle]
    have := h4 i
    rwa [Nat.zero_add] at this

/-! ### Writing -/

/-- The store while paragraphs are being written: they are there in order, each at its stored position. -/
structure Penned (s : Store) (L : List Para) (ps : List SPara) (ts : List Nat) : Prop extends Carries s L ps ts where
  seated : Seated s ps
  positive : ∀ p ∈ ps, 0 < p.id
  start : 0 < s.next "block"
  marks : ∀ t ∈ ts, t < s.next "table"
  runsOf : ∀ i, (s.formatRuns i).isSome → (s.blocks i).isSome
  imagesOf : ∀ i, (s.blockImages i).isSome → (s.blocks i).isSome

theorem Penned.of_same (h : Penned s L ps ts) (h1 : s'.text = s.text) (h2 : s'.blocks = s.blocks)
    (h3 : s'.formatRuns = s.formatRuns) (h4 : s'.blockImages = s.blockImages)
    (h5 : s'.next "block" = s.next "block") (h6 : s.next "table" ≤ s'.next "table") : Penned s' L ps ts := by
  refine ⟨h.toCarries.of_same h1 h2 h3 h4 h5, ?_, h.positive, by rw [h5]; exact h.start, ?_,
    by rw [h3, h2]; exact h.runsOf, by rw [h4, h2]; exact h.imagesOf⟩
  · intro n p hp; rw [h2]; exact h.seated n p hp
  · intro t ht; exact Nat.lt_of_lt_of_le (h.marks t ht) h6

theorem joinNl_eq_nil (l : List (List Char)) : joinNl l = [] ↔ l = [] ∨ l = [[]] := by
  cases l with
  | nil => simp [joinNl]
  | cons c l =>
    cases l with
    | nil => simp [joinNl]
    | cons x l => simp [joinNl]

/-- What writing a paragraph leaves alone. -/
structure Aside (s s' : Store) (g : Nat) (fr : Frame) : Prop where
  frames : s'.frames = s.frames.insert g { fr with blocks := fr.blocks ++ [s.next "block"] }
  documents : s'.documents = s.documents
  tables : s'.tables = s.tables
  tableCells : s'.tableCells = s.tableCells
  lists : s'.lists = s.lists
  roots : s'.roots = s.roots
  next : ∀ k, k ≠ "block" → s'.next k = s.next k
  nextBlock : s'.next "block" = s.next "block" + 1
  blocks : ∀ i, i ≠ s.next "block" → s'.blocks i = s.blocks i

theorem Penned.add (h : Penned s L ps ts) {g : Nat} {fr : Frame} (hf : s.frames g = some fr)
    (hall : ∀ i ∈ fr.blocks, (s.blocks i).isSome) {blk : Block} (h0 : blk.id = 0)
    (hpos : blk.documentPosition = charsBefore (paras ps)) {cs : List SChar} {content : List Char × List (Run CharFormat)}
    (ht : content.1 = cs.map Prod.fst) (hr : StyledOk content.2 cs) {bd : Bool} (hbd : bd = decide (L ≠ [])) :
    ∃ s', s.addParagraph g blk bd content = some (s.next "block", s') ∧
      Penned s' (L ++ [(.block (s.next "block"), cs.map Prod.fst)])
        (ps ++ [⟨s.next "block", cs, { blk with documentPosition := 0 }⟩]) ts ∧ Aside s s' g fr := by
  unfold Store.addParagraph
  rw [createBlock_new hf h0 hall, Option.map_some]
  have hne : ∀ p ∈ ps, p.id ≠ s.next "block" := fun p hp => by have := h.fresh p hp; omega
  have hnotin : s.next "block" ∉ ps.map SPara.id := by
    intro hh
    obtain ⟨p, hp, e⟩ := List.mem_map.mp hh
    exact hne p hp e
  have hab := h.toCarries.absent hnotin
  obtain ⟨hc1, hc2⟩ := h.clean _ (Nat.le_refl (s.next "block"))
  generalize hs1 : ({ s with
      counters := (s.nextId "block").2.counters
      blocks := s.blocks.insert (s.next "block") { blk with id := s.next "block" }
      frames := s.frames.insert g { fr with blocks := fr.blocks ++ [s.next "block"] } } : Store) = s1
  have ht1 : s1.text = s.text := by rw [← hs1]; rfl
  have hb1 : s1.blocks = s.blocks.insert (s.next "block") { blk with id := s.next "block" } := by rw [← hs1]
  have hr1 : s1.formatRuns = s.formatRuns := by rw [← hs1]
  have hi1 : s1.blockImages = s.blockImages := by rw [← hs1]
  have hn1 : s1.next "block" = s.next "block" + 1 := by rw [← hs1]; exact next_self "block" s
  have hn2 : ∀ k, k ≠ "block" → s1.next k = s.next k := by
    intro k hk; rw [← hs1]; exact next_other (a := "block") (b := k) (Ne.symm hk) s
  refine ⟨_, rfl, ?_, ?_⟩
  · generalize hrr : (if bd = true then ropeInsertBlockBoundary s1.text else s1.text) = r
    have hrep : Repr (ropeAppendBlock r (s.next "block") content.1) (L ++ [(.block (s.next "block"), cs.map Prod.fst)]) := by
      rw [ht, ← hrr, ht1]
      by_cases hL : L = []
      · subst hL
        rw [hbd]
        simpa using appendFirst_repr (cs.map Prod.fst) h.text
      · rw [hbd, if_pos (by simpa using hL)]
        refine appendNext_repr _ h.text hL ?_
        intro hm
        obtain ⟨m, hm, e⟩ := List.mem_map.mp hm
        rw [h.perm.mem_iff] at hm
        rcases List.mem_append.mp hm with hm | hm
        · obtain ⟨q, hq, rfl⟩ := List.mem_map.mp hm
          simp only [Marker.block.injEq] at e
          exact hne q hq e
        · obtain ⟨q, hq, rfl⟩ := List.mem_map.mp hm
          cases e
    have hst : ((s1.withText (ropeAppendBlock r (s.next "block") content.1)).putRuns (s.next "block") content.2).text =
        ropeAppendBlock r (s.next "block") content.1 := rfl
    have hnx : ((s1.withText (ropeAppendBlock r (s.next "block") content.1)).putRuns (s.next "block") content.2).next "block" =
        s.next "block" + 1 := hn1
    have hbl : ((s1.withText (ropeAppendBlock r (s.next "block") content.1)).putRuns (s.next "block") content.2).blocks =
        s.blocks.insert (s.next "block") { blk with id := s.next "block" } := hb1
    have him : ((s1.withText (ropeAppendBlock r (s.next "block") content.1)).putRuns (s.next "block") content.2).blockImages =
        s.blockImages := hi1
    have hru : ∀ i, ((s1.withText (ropeAppendBlock r (s.next "block") content.1)).putRuns (s.next "block") content.2).formatRuns i =
        if i = s.next "block" then (if content.2 = [] then none else some content.2) else s.formatRuns i := by
      intro i
      show (if content.2 = [] then s1.formatRuns.erase _ else s1.formatRuns.insert _ _) i = _
      rw [hr1]
      split <;> simp only [IdMap.erase_get, IdMap.insert_get]
    have hta : s.next "table" ≤ ((s1.withText (ropeAppendBlock r (s.next "block") content.1)).putRuns (s.next "block") content.2).next "table" := by
      show _ ≤ s1.next "table"
      rw [hn2 _ (by decide)]; omega
    generalize ((s1.withText (ropeAppendBlock r (s.next "block") content.1)).putRuns (s.next "block") content.2) = s2 at *
    refine ⟨⟨by rw [hst]; exact hrep, ?_, ?_, ?_, ?_, ?_, ?_, ?_⟩, ?_, ?_, by rw [hnx]; omega, ?_, ?_, ?_⟩
    · have hpp : paras (ps ++ [⟨s.next "block", cs, { blk with documentPosition := 0 }⟩]) =
          paras ps ++ [(.block (s.next "block"), cs.map Prod.fst)] := by simp [paras, SPara.text]
      rw [hpp, List.append_assoc]
      refine (h.perm.append_right _).trans ?_
      rw [List.append_assoc]
      exact (List.perm_append_comm).append_left _
    · rw [hbl]
      simp only [IdMap.insert, hab, Option.isSome_none, Bool.false_eq_true, if_false, List.map_append]
      exact h.keys.append_right _
    · intro p hp
      rw [hbl]
      rcases List.mem_append.mp hp with hp | hp
      · obtain ⟨b, hb, hib⟩ := h.block p hp
        exact ⟨b, by simp only [IdMap.insert_get, hne p hp, if_false]; exact hb, hib⟩
      · simp only [List.mem_singleton] at hp
        subst hp
        exact ⟨{ blk with id := s.next "block" }, by simp only [IdMap.insert_get, if_true], rfl⟩
    · intro p hp
      rw [hru]
      rcases List.mem_append.mp hp with hp | hp
      · rw [if_neg (hne p hp)]; exact h.formats p hp
      · simp only [List.mem_singleton] at hp
        subst hp
        simp only [if_true]
        split
        · rename_i e; rw [e] at hr; exact hr
        · exact hr
    · intro p hp
      rw [him]
      rcases List.mem_append.mp hp with hp | hp
      · exact h.images p hp
      · simp only [List.mem_singleton] at hp
        subst hp
        simp only [hc2]; rfl
    · intro p hp
      rw [hnx]
      rcases List.mem_append.mp hp with hp | hp
      · have := h.fresh p hp; omega
      · simp only [List.mem_singleton] at hp
        subst hp
        show s.next "block" < _
        omega
    · intro i hi
      rw [hnx] at hi
      rw [hru, him, if_neg (by omega)]
      exact h.clean i (by omega)
    · intro n p hp
      rw [hbl]
      by_cases hn : n < ps.length
      · rw [List.getElem?_append_left hn] at hp
        obtain ⟨b, hb, hbp⟩ := h.seated n p hp
        refine ⟨b, ?_, ?_⟩
        · simp only [IdMap.insert_get, hne p (List.mem_of_getElem? hp), if_false]; exact hb
        · rw [hbp]; unfold paraStart; rw [List.take_append_of_le_length (by omega)]
      · rw [List.getElem?_append_right (by omega)] at hp
        have h0' : n - ps.length = 0 := by
          cases hk : n - ps.length with
          | zero => rfl
          | succ k => rw [hk] at hp; simp at hp
        rw [h0'] at hp
        simp only [List.getElem?_cons_zero, Option.some.injEq] at hp
        subst hp
        have hnn : n = ps.length := by omega
        subst hnn
        exact ⟨{ blk with id := s.next "block" }, by simp only [IdMap.insert_get, if_true], by rw [paraStart_split]; exact hpos⟩
    · intro p hp
      rcases List.mem_append.mp hp with hp | hp
      · exact h.positive p hp
      · simp only [List.mem_singleton] at hp
        subst hp; exact h.start
    · intro t ht
      exact Nat.lt_of_lt_of_le (h.marks t ht) hta
    · intro i hi
      rw [hru] at hi
      rw [hbl, IdMap.insert_get]
      split
      · rfl
      · rename_i hne'
        rw [if_neg hne'] at hi
        exact h.runsOf i hi
    · intro i hi
      rw [him] at hi
      rw [hbl, IdMap.insert_get]
      split
      · rfl
      · exact h.imagesOf i hi
  · refine ⟨by rw [← hs1]; rfl, by rw [← hs1]; rfl, by rw [← hs1]; rfl, by rw [← hs1]; rfl, by rw [← hs1]; rfl,
      by rw [← hs1]; rfl, ?_, ?_, ?_⟩
    · intro k hk; exact hn2 k hk
    · exact hn1
    · intro i hi
      show s1.blocks i = _
      rw [hb1]; simp only [IdMap.insert_get, hi, if_false]

/-- Setting the list of the last paragraph. -/
theorem Penned.setList (h : Penned s L (ps ++ [p]) ts) {l : Nat} (hl : (s.lists l).isSome) :
    ∃ s', s.setBlockList p.id (some l) = some s' ∧
      Penned s' L (ps ++ [{ p with shape := { p.shape with list := some l } }]) ts ∧
      (∃ b, s.blocks p.id = some b ∧ s' = { s with blocks := s.blocks.insert p.id { b with list := some l } }) := by
  obtain ⟨b, hb, hib⟩ := h.block p (by simp)
  unfold Store.setBlockList
  rw [if_pos (by simpa using hl), hb]
  refine ⟨_, rfl, ?_, b, rfl, rfl⟩
  have hnd := h.toCarries.ids_nodup
  simp only [List.map_append, List.map_cons, List.map_nil, List.nodup_append] at hnd
  have hne : ∀ q ∈ ps, q.id ≠ p.id := fun q hq => hnd.2.2 q.id (List.mem_map_of_mem hq) p.id (by simp)
  have hpar : paras (ps ++ [{ p with shape := { p.shape with list := some l } }]) = paras (ps ++ [p]) := by
    simp [paras, SPara.text]
  have hmap : (ps ++ [{ p with shape := { p.shape with list := some l } }]).map SPara.id = (ps ++ [p]).map SPara.id := by simp
  have hmem : ∀ q ∈ ps ++ [{ p with shape := { p.shape with list := some l } }],
      (q ∈ ps ∧ q.id ≠ p.id) ∨ q = { p with shape := { p.shape with list := some l } } := by
    intro q hq
    rcases List.mem_append.mp hq with hq | hq
    · exact .inl ⟨hq, hne q hq⟩
    · exact .inr (by simpa using hq)
  refine ⟨⟨h.text, by rw [hpar]; exact h.perm, ?_, ?_, ?_, ?_, ?_, h.clean⟩, ?_, ?_, h.start, h.marks, ?_, ?_⟩
  · rw [hmap]
    show (s.blocks.insert p.id _).keys.Perm _
    simp only [IdMap.insert, hb, Option.isSome_some, if_true]
    exact h.keys
  · intro q hq
    rcases hmem q hq with ⟨hq, hn⟩ | rfl
    · obtain ⟨c, hc, hic⟩ := h.block q (by simp [hq])
      exact ⟨c, by simp only [IdMap.insert_get, hn, if_false]; exact hc, hic⟩
    · refine ⟨{ b with list := some l }, by simp only [IdMap.insert_get, if_true], ?_⟩
      show ({ b with list := some l } : Block) = _
      rw [hib]
  · intro q hq
    rcases hmem q hq with ⟨hq, hn⟩ | rfl
    · exact h.formats q (by simp [hq])
    · exact h.formats p (by simp)
  · intro q hq
    rcases hmem q hq with ⟨hq, hn⟩ | rfl
    · exact h.images q (by simp [hq])
    · exact h.images p (by simp)
  · intro q hq
    rcases hmem q hq with ⟨hq, hn⟩ | rfl
    · exact h.fresh q (by simp [hq])
    · exact h.fresh p (by simp)
  · intro n q hq
    have hst : paraStart (ps ++ [{ p with shape := { p.shape with list := some l } }]) n = paraStart (ps ++ [p]) n := by
      unfold paraStart
      rw [List.map_take, List.map_take]
      congr 1
      simp
    rw [hst]
    by_cases hn : n < ps.length
    · rw [List.getElem?_append_left hn] at hq
      obtain ⟨c, hc, hcp⟩ := h.seated n q (by rw [List.getElem?_append_left hn]; exact hq)
      exact ⟨c, by simp only [IdMap.insert_get, hne q (List.mem_of_getElem? hq), if_false]; exact hc, hcp⟩
    · rw [List.getElem?_append_right (by omega)] at hq
      have h0' : n - ps.length = 0 := by
        cases hk : n - ps.length with
        | zero => rfl
        | succ k => rw [hk] at hq; simp at hq
      rw [h0'] at hq
      simp only [List.getElem?_cons_zero, Option.some.injEq] at hq
      subst hq
      obtain ⟨c, hc, hcp⟩ := h.seated n p (by rw [List.getElem?_append_right (by omega), h0']; rfl)
      rw [hb] at hc; cases hc
      exact ⟨{ b with list := some l }, by simp only [IdMap.insert_get, if_true], hcp⟩
  · intro q hq
    rcases hmem q hq with ⟨hq, hn⟩ | rfl
    · exact h.positive q (by simp [hq])
    · exact h.positive p (by simp)
  · intro i hi
    rw [IdMap.insert_get]
    split
    · rfl
    · exact h.runsOf i hi
  · intro i hi
    rw [IdMap.insert_get]
    split
    · rfl
    · exact h.imagesOf i hi

/-- Marking the place of a table. -/
theorem Penned.anchor (h : Penned s L ps ts) {t : Nat} (hL : L.map Prod.snd ≠ [[]]) (ht : t ∉ ts)
    (hlt : t < s.next "table") :
    Penned (s.withText (ropeAppendTableAnchor s.text t)) (L ++ [(.table t, [objChar])]) ps (ts ++ [t]) := by
  have hrep : Repr (ropeAppendTableAnchor s.text t) (L ++ [(.table t, [objChar])]) := by
    by_cases hn : L = []
    · subst hn; exact appendTableAnchor_first_repr h.text
    · refine appendTableAnchor_repr h.text ?_ ?_
      · rw [h.text.text]
        rw [Ne, joinNl_eq_nil, not_or]
        exact ⟨by simpa using hn, hL⟩
      · intro hm
        obtain ⟨m, hm, e⟩ := List.mem_map.mp hm
        rw [h.perm.mem_iff] at hm
        rcases List.mem_append.mp hm with hm | hm
        · obtain ⟨q, hq, rfl⟩ := List.mem_map.mp hm
          cases e
        · obtain ⟨q, hq, rfl⟩ := List.mem_map.mp hm
          simp only [Marker.table.injEq] at e
          exact ht (e ▸ hq)
  refine ⟨⟨hrep, ?_, h.keys, h.block, h.formats, h.images, h.fresh, h.clean⟩, h.seated, h.positive, h.start, ?_, h.runsOf, h.imagesOf⟩
  · rw [List.map_append, ← List.append_assoc]
    exact h.perm.append_right _
  · intro u hu
    rcases List.mem_append.mp hu with hu | hu
    · exact h.marks u hu
    · simp only [List.mem_singleton] at hu
      subst hu; exact hlt

end Verif
