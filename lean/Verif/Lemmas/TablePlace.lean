import Verif.Lemmas.TableInsert
/- Where `insert_table` puts the table. -/
namespace Verif
variable {s s' : Store} {d : Document} {f : Nat} {items A B : List SItem}
open Store

theorem SPara.text_len (p : SPara) : p.text.length = p.chars.length := by simp [SPara.text]

theorem flatMap_perm_of {α β : Type} {g h : α → List β} : ∀ {l : List α}, (∀ x ∈ l, (g x).Perm (h x)) →
    (l.flatMap g).Perm (l.flatMap h)
  | [], _ => .refl _
  | x :: l, H => by
    rw [List.flatMap_cons, List.flatMap_cons]
    exact (H x (by simp)).append (flatMap_perm_of fun y hy => H y (by simp [hy]))

theorem split_unique {p : SPara} : ∀ {X Y X' Y' : List SPara}, ((X ++ p :: Y).map SPara.id).Nodup →
    X ++ p :: Y = X' ++ p :: Y' → X = X' ∧ Y = Y'
  | [], Y, [], Y', _, e => by simp at e; exact ⟨rfl, e⟩
  | [], Y, x :: X', Y', hn, e => by
    simp only [List.nil_append, List.cons_append, List.cons.injEq] at e
    obtain ⟨rfl, rfl⟩ := e
    simp at hn
  | x :: X, Y, [], Y', hn, e => by
    simp only [List.nil_append, List.cons_append, List.cons.injEq] at e
    obtain ⟨rfl, rfl⟩ := e
    simp at hn
  | x :: X, Y, x' :: X', Y', hn, e => by
    simp only [List.cons_append, List.cons.injEq] at e
    obtain ⟨rfl, e⟩ := e
    simp only [List.cons_append, List.map_cons, List.nodup_cons] at hn
    obtain ⟨rfl, rfl⟩ := split_unique hn.2 e
    exact ⟨rfl, rfl⟩

/-- The characters before each paragraph. -/
def spots : Nat → List SPara → List (Nat × Nat)
  | _, [] => []
  | r, q :: qs => (q.id, r) :: spots (r + (q.text.length + 1)) qs

theorem mem_spots {r : Nat} {qs : List SPara} {x : Nat × Nat} (h : x ∈ spots r qs) :
    ∃ L p R, qs = L ++ p :: R ∧ x = (p.id, r + charsBefore (paras L)) := by
  induction qs generalizing r with
  | nil => simp [spots] at h
  | cons q qs ih =>
    simp only [spots, List.mem_cons] at h
    rcases h with rfl | h
    · exact ⟨[], q, qs, rfl, by simp⟩
    · obtain ⟨L, p, R, e, hx⟩ := ih h
      refine ⟨q :: L, p, R, by rw [e]; rfl, ?_⟩
      rw [hx, charsBefore_paras_cons]
      simp only [Prod.mk.injEq, true_and, SPara.text_len]
      omega

theorem spots_has {r : Nat} (L R : List SPara) (p : SPara) : (p.id, r + charsBefore (paras L)) ∈ spots r (L ++ p :: R) := by
  induction L generalizing r with
  | nil => simp [spots]
  | cons q L ih =>
    have := ih (r := r + (q.text.length + 1))
    rw [charsBefore_paras_cons]
    simp only [List.cons_append, spots, List.mem_cons]
    right
    rw [show r + (q.chars.length + 1 + charsBefore (paras L)) = r + (q.text.length + 1) + charsBefore (paras L) by
      rw [SPara.text_len]; omega]
    exact this

theorem spots_ids (r : Nat) (qs : List SPara) : (spots r qs).map Prod.fst = qs.map SPara.id := by
  induction qs generalizing r with
  | nil => rfl
  | cons q qs ih => simp [spots, ih]

theorem readSpots {st : RopeSt} : ∀ (Y X : List SPara), Repr st (paras (X ++ Y)) →
    mapOpt (readSpot st.rope) (layout (span (paras X)) (paras Y)) =
    some ((spots (charsBefore (paras X)) Y).map fun x => [x]) := by
  intro Y
  induction Y with
  | nil => intro X _; rfl
  | cons q Y ih =>
    intro X h
    have hp : paras (X ++ q :: Y) = paras X ++ (.block q.id, q.text) :: paras Y := by simp [paras]
    have f := (hp ▸ h).focus
    have h2 := ih (X ++ [q]) (by simpa using h)
    have e1 : span (paras (X ++ [q])) = span (paras X) + utf8Len q.text + 1 := by simp [paras, span]; omega
    have e2 : charsBefore (paras (X ++ [q])) = charsBefore (paras X) + (q.text.length + 1) := by
      rw [charsBefore_paras_two, charsBefore_paras_cons]; simp
    rw [e1, e2] at h2
    show mapOpt _ ((.block q.id, span (paras X)) :: layout _ (paras Y)) = _
    simp only [mapOpt, h2, readSpot, f.charStart, Option.map_some, spots, List.map_cons, Option.bind_some]

theorem Tabled.same {L : List Para} (h : Tabled s d f items) (hH : Carries s' L (flowParas items) ((tablesOf items).map fun t => t.table.id))
    (hsub : (paras (topParas items)).Sublist L) (hseat : tablesOf items ≠ [] → Seated s' (flowParas items))
    (hd : s'.documents d.id = some d) (hr : s'.roots = s.roots) (hf : s'.frames = s.frames) (ht : s'.tables = s.tables)
    (hc : s'.tableCells = s.tableCells) (hn : ∀ k, s'.next k = s.next k) : Tabled s' d f items := by
  constructor
  · rw [hr]; exact h.root
  · exact hd
  · exact ⟨L, hH, hsub⟩
  · rw [hf]; exact h.frame
  · intro t hm
    have := h.table t hm
    exact ⟨by rw [ht]; exact this.table, this.cells, this.order, by rw [hf]; exact this.anchor, by rw [hf, hc]; exact this.cell⟩
  · exact h.frames
  · exact h.distinct
  · rw [hf]; exact h.onlyFrames
  · exact h.tables
  · rw [hf, hn]; exact h.freshFrames
  · rw [ht, hn]; exact h.freshTables
  · rw [hc, hn]; exact h.freshCells
  · rw [ht]; exact h.onlyTables
  · rw [hc]; exact h.onlyCells
  · exact h.positive
  · exact h.nonempty
  · exact hseat

theorem flow_of_noTables (h : tablesOf items = []) : topParas items = flowParas items := by
  induction items with
  | nil => rfl
  | cons x items ih =>
    cases x with
    | para p =>
      have : tablesOf items = [] := by simpa [tablesOf] using h
      have := ih this
      simp only [topParas, flowParas, List.flatMap_cons, SItem.paras] at this ⊢
      rw [this]
    | table t => simp [tablesOf] at h

/-- Bringing the stored positions up to date. -/
theorem Tabled.catchUp (h : Tabled s d f items) :
    ∃ s1 m, s.catchUp = some s1 ∧ Tabled s1 d f items ∧ Placed s1 (flowParas items) ∧ s1 = { s with blocks := m } := by
  obtain ⟨L, hH, hsub⟩ := h.content
  unfold Store.catchUp
  rw [hH.matchFlow]
  by_cases ht : tablesOf items = []
  · rw [ht] at hH
    rw [if_pos (by rw [ht]; rfl)]
    have htop := flow_of_noTables ht
    rw [htop] at hsub
    have hL := hH.plain hsub
    have hR := hH.text
    rw [hL] at hR
    have hread := readSpots (st := s.text) (flowParas items) [] (by simpa using hR)
    rw [show s.blockOffsets.entries = layout 0 (paras (flowParas items)) from hR.starts]
    simp only [paras, List.map_nil, span, charsBefore] at hread
    rw [show s.text.rope = s.rope from rfl] at hread
    rw [show mapOpt _ (layout 0 (paras (flowParas items))) = _ from hread, Option.map_some]
    have hfl : ((spots 0 (flowParas items)).map fun x => [x]).flatten = spots 0 (flowParas items) := by
      rw [← List.flatMap_def, List.flatMap_singleton']
    simp only [List.sum_nil]
    rw [hfl]
    generalize hbs : ((spots 0 (flowParas items)).filterMap fun x => (s.blocks x.1).bind fun b =>
      if b.documentPosition = (x.2 : Int) then none else some ({ b with documentPosition := (x.2 : Int) } : Block)) = bs
    have hbs1 : ∀ b ∈ bs, ∃ X p Y, flowParas items = X ++ p :: Y ∧ b = p.entity (charsBefore (paras X)) := by
      intro b hb
      rw [← hbs, List.mem_filterMap] at hb
      obtain ⟨x, hx, hb⟩ := hb
      obtain ⟨X, p, Y, e, rfl⟩ := mem_spots hx
      refine ⟨X, p, Y, e, ?_⟩
      simp only [hH.stored (p := p) (by rw [e]; simp), Option.bind_some] at hb
      split at hb
      · cases hb
      · cases hb; simp [SPara.entity]
    have hids : (bs.map Block.id).Sublist ((flowParas items).map SPara.id) := by
      rw [← spots_ids 0, ← hbs, List.map_filterMap]
      have : ∀ l : List (Nat × Nat), (∀ x ∈ l, x ∈ spots 0 (flowParas items)) → (l.filterMap fun x => Option.map Block.id
          ((s.blocks x.1).bind fun b => if b.documentPosition = (x.2 : Int) then none
            else some ({ b with documentPosition := (x.2 : Int) } : Block))).Sublist (l.map Prod.fst) := by
        intro l
        induction l with
        | nil => intro _; exact .slnil
        | cons x l ih =>
          intro hl
          have hrec := ih fun y hy => hl y (by simp [hy])
          obtain ⟨X, p, Y, e, rfl⟩ := mem_spots (hl x (by simp))
          have hst := hH.stored (p := p) (by rw [e]; simp)
          rw [List.map_cons]
          by_cases hq : (p.entity (s.storedPos p)).documentPosition = ((0 + charsBefore (paras X) : Nat) : Int)
          · rw [List.filterMap_cons_none (by simp only [hst, Option.bind_some]; rw [if_pos hq]; rfl)]
            exact hrec.cons _
          · rw [List.filterMap_cons_some (b := p.id) (by simp only [hst, Option.bind_some]; rw [if_neg hq]; rfl)]
            exact hrec.cons₂ _
      exact this _ fun x hx => hx
    obtain ⟨g1, g2, m, g3⟩ := updateBlocks_get (s := s) bs (hH.ids_nodup.sublist hids)
    have hH1 : Carries (s.updateBlocks bs) L (flowParas items) [] := hH.updateBlocks (by
      intro b hb
      obtain ⟨X, p, Y, e, rfl⟩ := hbs1 b hb
      exact ⟨p, by rw [e]; simp, isBlock_entity p _⟩)
    refine ⟨_, m, rfl, ?_, ?_, g3⟩
    · rw [g3] at hH1 ⊢
      refine h.same (L := L) (by rw [ht]; exact hH1) (by rw [htop]; exact hsub) (fun hne => absurd ht hne) h.document rfl rfl rfl rfl
        (fun _ => rfl)
    · intro X p Y e
      have hst := hH.stored (p := p) (by rw [e]; simp)
      by_cases hq : (p.entity (s.storedPos p)).documentPosition = ((0 + charsBefore (paras X) : Nat) : Int)
      · by_cases hm : p.id ∈ bs.map Block.id
        · obtain ⟨b, hb, hbid⟩ := List.mem_map.mp hm
          obtain ⟨X', p', Y', e', rfl⟩ := hbs1 b hb
          have hpp : p' = p := hH.unique (by rw [e]; simp) (by rw [e']; simp) hbid
          subst hpp
          refine ⟨_, g1 _ hb, ?_⟩
          have hXX : X' = X := by
            have hnd := hH.ids_nodup
            rw [e] at e'
            exact (split_unique (by rw [e] at hnd; exact hnd) e').1.symm
          rw [show (p'.entity (charsBefore (paras X'))).id = p'.id from rfl, hst, hXX]; rfl
        · exact ⟨_, by rw [g2 _ hm]; exact hst, by rw [hq]; simp⟩
      · have hb : p.entity (charsBefore (paras X)) ∈ bs := by
          rw [← hbs, List.mem_filterMap]
          refine ⟨_, by rw [e]; exact spots_has X Y p, ?_⟩
          simp only [hst, Option.bind_some]
          rw [if_neg hq]; simp [SPara.entity]
        refine ⟨_, g1 _ hb, ?_⟩
        rw [show (p.entity (charsBefore (paras X))).id = p.id from rfl, hst]; rfl
  · rw [if_neg (by simpa using ht)]
    exact ⟨s, s.blocks, rfl, h, placed_of_seated (h.seated ht), rfl⟩

theorem flowParas_perm (items : List SItem) :
    (flowParas items).Perm (topParas items ++ (tablesOf items).flatMap fun t => t.cells.flatMap SCell.paras) := by
  induction items with
  | nil => exact .refl _
  | cons x items ih =>
    cases x with
    | para p => exact ih.cons p
    | table t =>
      have e1 : flowParas (.table t :: items) = t.cells.flatMap SCell.paras ++ flowParas items := rfl
      have e2 : topParas (.table t :: items) = topParas items := rfl
      have e3 : tablesOf (.table t :: items) = t :: tablesOf items := rfl
      rw [e1, e2, e3, List.flatMap_cons]
      refine (ih.append_left _).trans ?_
      rw [← List.append_assoc, ← List.append_assoc]
      exact List.perm_append_comm.append_right _

/-- The paragraphs of all frames. -/
theorem Tabled.frameBlocks_perm (h : Tabled s d f items) :
    ((s.docFrames d.id).flatMap s.frameBlocks).Perm ((flowParas items).map SPara.id) := by
  obtain ⟨rest, h1, h2⟩ := h.frames
  obtain ⟨fr, f1, f2, f3, f4, f5, f6, f7⟩ := h.frame
  have hdf : s.docFrames d.id = f :: rest := by unfold Store.docFrames; rw [h.document, ← h1]; rfl
  rw [hdf, List.flatMap_cons]
  have hf : s.frameBlocks f = fr.blocks := by unfold Store.frameBlocks; rw [f1]; rfl
  rw [hf]
  have hrest : (rest.flatMap s.frameBlocks).Perm
      (((tablesOf items).flatMap fun t => t.cells.flatMap SCell.paras).map SPara.id) := by
    refine (h2.flatMap_right _).trans ?_
    unfold tableFrames
    rw [List.flatMap_assoc, List.map_flatMap]
    refine flatMap_perm_of fun t ht => ?_
    have hs := h.table t ht
    obtain ⟨afr, a1, a2, a3, a4, a5⟩ := hs.anchor
    rw [List.flatMap_cons]
    have : s.frameBlocks t.anchor = [] := by unfold Store.frameBlocks; rw [a1]; exact a4
    rw [this, List.nil_append, List.flatMap_map, List.map_flatMap]
    refine flatMap_perm_of fun c hc => ?_
    obtain ⟨_, _, _, cfr, c1, c2, c3, c4, c5, c6⟩ := hs.cell c hc
    have : s.frameBlocks c.frame = cfr.blocks := by unfold Store.frameBlocks; rw [c1]; rfl
    rw [this]; exact c6
  refine (f7.append hrest).trans ?_
  rw [← List.map_append]
  exact ((flowParas_perm items).map _).symm

theorem Tabled.allBlocks (h : Tabled s d f items) (hp : Placed s (flowParas items)) :
    s.allBlocks d.id = placed 0 (flowParas items) := by
  obtain ⟨L, hH, hsub⟩ := h.content
  have e : ((flowParas items).map fun p => p.entity (s.storedPos p)) = placed 0 (flowParas items) := by
    apply map_entity_placed
    intro L p R e
    obtain ⟨b, h1, h2⟩ := hp L p R e
    simp [Store.storedPos, h1, h2]
  refine eq_of_sorted Block.documentPosition ?_ (sortByKey_sorted _ _) (placed_strict 0 _)
  refine (sortByKey_perm _ _).trans ?_
  rw [← e, ← hH.getBlocks _ fun q hq => hq]
  have : (s.docFrames d.id).flatMap (fun f => s.getBlocks (s.frameBlocks f)) =
      s.getBlocks ((s.docFrames d.id).flatMap s.frameBlocks) := by
    unfold Store.getBlocks; rw [List.filterMap_flatMap]
  rw [this]
  exact h.frameBlocks_perm.filterMap _

theorem Carries.walk {L : List Para} {ps : List SPara} {ts : List Nat} (h : Carries s L ps ts) {p : SPara} {a b : List SChar}
    (hc : p.chars = a ++ b) : ∀ (X Y : List SPara) (r i : Nat), (∀ q ∈ X ++ p :: Y, q ∈ ps) →
    Store.walkStored s.text ((r + charsBefore (paras X) + a.length : Nat) : Int) i (placed (r : Int) (X ++ p :: Y)) =
      some (some (p.entity ((r + charsBefore (paras X) : Nat) : Int), i + X.length, (a.length : Int))) := by
  intro X
  induction X with
  | nil =>
    intro Y r i hm
    have hl := h.charLength (hm p (by simp))
    simp only [List.nil_append, placed, Store.walkStored]
    rw [show (p.entity (r : Int)).id = p.id from rfl, hl, Option.bind_some]
    have hlen : p.text.length = a.length + b.length := by rw [SPara.text_len, hc, List.length_append]
    rw [if_pos]
    · simp [SPara.entity]; omega
    · simp only [SPara.entity, hlen]; simp; omega
  | cons q X ih =>
    intro Y r i hm
    have hl := h.charLength (hm q (by simp))
    have := ih Y (r + (q.text.length + 1)) (i + 1) (fun x hx => hm x (by simp at hx ⊢; right; exact hx))
    rw [charsBefore_paras_cons]
    simp only [List.cons_append, placed, Store.walkStored]
    rw [show (q.entity (r : Int)).id = q.id from rfl, hl, Option.bind_some, if_neg]
    · rw [show r + (q.chars.length + 1 + charsBefore (paras X)) = r + (q.text.length + 1) + charsBefore (paras X) by
        rw [SPara.text_len]; omega]
      rw [show ((r : Int) + ((q.text.length : Int) + 1)) = ((r + (q.text.length + 1) : Nat) : Int) by push_cast; omega]
      rw [this]
      simp; omega
    · simp only [SPara.entity, SPara.text_len]; push_cast; omega

/-- The caret's paragraph. -/
theorem Tabled.find {p : SPara} {X Y : List SPara} {a b : List SChar} (h : Tabled s d f items)
    (e : flowParas items = X ++ p :: Y) (hc : p.chars = a ++ b) :
    s.findBlockAtPosition (placed 0 (flowParas items)) ((charsBefore (paras X) + a.length : Nat) : Int) =
      some (p.entity (charsBefore (paras X)), X.length, (a.length : Int)) := by
  obtain ⟨L, hH, hsub⟩ := h.content
  by_cases ht : tablesOf items = []
  · rw [ht] at hH
    rw [flow_of_noTables ht] at hsub
    have hS := hH.toShows hsub h.root h.document
    have hnd := hH.ids_nodup
    rw [e] at hS hnd ⊢
    exact hS.findIn hc (placed_entities _ _) (placed_find 0 X Y p hnd)
  · unfold Store.findBlockAtPosition
    rw [hH.noFind (by simpa using ht), Option.bind_some]
    have := hH.walk hc X Y 0 0 (by intro q hq; rw [e]; exact hq)
    rw [← e] at this
    simp only [Option.bind_none]
    simp only [Nat.zero_add] at this
    rw [show ((0 : Nat) : Int) = 0 from rfl] at this
    rw [this, Option.bind_some]

theorem Tabled.findChild_top {p : SPara} (h : Tabled s d f (A ++ .para p :: B)) :
    s.findChild (p.id : Int) (s.docFrames d.id) = some (some (f, A.length)) := by
  obtain ⟨L, hH, hsub⟩ := h.content
  obtain ⟨rest, h1, h2⟩ := h.frames
  obtain ⟨fr, f1, f2, f3, f4, f5, f6, f7⟩ := h.frame
  have hdf : s.docFrames d.id = f :: rest := by unfold Store.docFrames; rw [h.document, ← h1]; rfl
  have hpp := h.positive p (by rw [flowParas_append]; simp [flowParas, SItem.paras])
  have hnd := hH.ids_nodup
  rw [flowParas_append, flowParas_para, List.map_append, List.map_cons, List.nodup_append] at hnd
  have hidx : fr.childOrder.findIdx? (fun x => decide (x = (p.id : Int))) = some A.length := by
    rw [f6, List.map_append, List.map_cons, List.findIdx?_append]
    have : (A.map SItem.entry).findIdx? (fun x => decide (x = (p.id : Int))) = none := by
      rw [List.findIdx?_eq_none_iff]
      intro x hx
      obtain ⟨y, hy, rfl⟩ := List.mem_map.mp hx
      cases y with
      | para q =>
        have hq : q.id ∈ (flowParas A).map SPara.id := List.mem_map_of_mem (List.mem_flatMap.mpr ⟨_, hy, by simp [SItem.paras]⟩)
        have := hnd.2.2 _ hq p.id (by simp)
        rw [decide_eq_false_iff_not]; simp only [SItem.entry]; omega
      | table t => rw [decide_eq_false_iff_not]; simp only [SItem.entry]; omega
    rw [this]
    simp [List.findIdx?_cons, SItem.entry]
  rw [hdf]
  simp only [Store.findChild, f1, Option.bind_some, hidx]

/-- Where the table goes when the caret is outside the tables. -/
theorem Tabled.place_top {p : SPara} {a b : List SChar} (h : Tabled s d f (A ++ .para p :: B)) (hc : p.chars = a ++ b) :
    s.tablePlace d.id (placed 0 (flowParas (A ++ .para p :: B))) ((charsBefore (paras (flowParas A)) + a.length : Nat) : Int) =
      some (if a = [] then ⟨f, A.length, some (p.id, false), (charsBefore (paras (flowParas A)) : Int)⟩
        else ⟨f, (A ++ [SItem.para p]).length, some (p.id, true), (charsBefore (paras (flowParas (A ++ [.para p]))) : Int)⟩) := by
  obtain ⟨L, hH, hsub⟩ := h.content
  obtain ⟨fr, f1, f2, f3, f4, f5, f6, f7⟩ := h.frame
  obtain ⟨rest, h1, h2⟩ := h.frames
  have hdf : s.docFrames d.id = f :: rest := by unfold Store.docFrames; rw [h.document, ← h1]; rfl
  have e : flowParas (A ++ .para p :: B) = flowParas A ++ p :: flowParas B := by rw [flowParas_append, flowParas_para]
  have hpm : p ∈ flowParas (A ++ .para p :: B) := by rw [e]; simp
  have hlen : p.text.length = a.length + b.length := by rw [SPara.text_len, hc, List.length_append]
  unfold Store.tablePlace
  rw [if_neg (by rw [e]; intro h0; have := congrArg List.length h0; rw [placed_length] at this; simp at this)]
  rw [h.find e hc, Option.bind_some]
  dsimp only
  rw [show (p.entity (charsBefore (paras (flowParas A)))).id = p.id from rfl, hH.charLength hpm, Option.bind_some,
    h.findChild_top, hdf]
  simp only [List.head?_cons, Option.bind_some, Option.getD_some, f1, f3]
  by_cases ha : a = []
  · subst ha; simp [SPara.entity]
  · rw [if_neg ha]
    have : 0 < a.length := List.length_pos_iff.mpr ha
    have e2 : charsBefore (paras (flowParas (A ++ [.para p]))) = charsBefore (paras (flowParas A)) + p.text.length + 1 := by
      rw [flowParas_append, charsBefore_paras_two]
      show _ + charsBefore (paras [p]) = _
      rw [charsBefore_paras_cons]; simp; omega
    simp [this, e2, SPara.entity]

theorem Tabled.docIdOf (h : Tabled s d f items) : s.docId = some d.id := by
  obtain ⟨r, r', h1, h2, h3, h4⟩ := h.root
  unfold Store.docId
  rw [h1, Option.bind_some, h2, Option.bind_some, if_neg (by rw [h3]; exact h4), h3]

/-- `insert_table` with the caret in a paragraph outside the tables. -/
theorem Tabled.insertTable_top {p : SPara} {a b : List SChar} {position anchor rows columns : Int}
    (h : Tabled s d f (A ++ .para p :: B)) (hc : p.chars = a ++ b)
    (hpos : min position anchor = ((charsBefore (paras (flowParas A)) + a.length : Nat) : Int))
    (hr : 1 ≤ rows) (hcol : 1 ≤ columns) :
    ∃ s', s.insertTable position anchor rows columns = some (s', s.next "table", min position anchor, s.snapshot) ∧
      Tabled s' { d with
        frames := d.frames ++ (madeTable s rows columns).cells.map SCell.frame ++ [(madeTable s rows columns).anchor]
        tables := d.tables ++ [s.next "table"], blockCount := d.blockCount + rows * columns } f
        (A ++ if a = [] then .table (madeTable s rows columns) :: .para p :: B
          else .para p :: .table (madeTable s rows columns) :: B) ∧ s'.lists = s.lists := by
  obtain ⟨s1, m, c1, c2, c3, c4⟩ := h.catchUp
  obtain ⟨L, hH, hsub⟩ := c2.content
  have e : flowParas (A ++ .para p :: B) = flowParas A ++ p :: flowParas B := by rw [flowParas_append, flowParas_para]
  have hpm : p ∈ flowParas (A ++ .para p :: B) := by rw [e]; simp
  have hnew : Marker.table (s1.next "table") ∉ L.map Prod.fst := by
    intro hm
    have := (hH.perm.map Prod.fst).mem_iff.mp hm
    rw [List.map_append, List.mem_append, paras_fst] at this
    rcases this with hm | hm
    · simp at hm
    · rw [List.map_map] at hm
      obtain ⟨t, ht, e⟩ := List.mem_map.mp hm
      simp only [Function.comp, Marker.table.injEq] at e
      obtain ⟨t', ht', rfl⟩ := List.mem_map.mp ht
      have := c2.freshTables t'.table.id (by rw [(c2.table t' ht').table]; rfl)
      omega
  have hmt : madeTable s1 rows columns = madeTable s rows columns := by rw [c4]; rfl
  have hnt : s1.next "table" = s.next "table" := by rw [c4]; rfl
  have hls : s1.lists = s.lists := by rw [c4]
  have hins : s.insertTable position anchor rows columns =
      (s1.tablePlace d.id (s1.allBlocks d.id) (min position anchor)).bind fun place =>
        (buildTable s1 d (s1.allBlocks d.id) place rows columns).map fun s' => (s', s.next "table", min position anchor, s.snapshot) := by
    unfold Store.insertTable buildTable
    rw [if_neg (by omega), h.docIdOf, Option.bind_some, h.document, Option.bind_some, c1, Option.bind_some]
    rw [createTable_new c2.document c2.allTables]
    simp only [Option.bind_some, Option.map_bind, Function.comp_def, Option.map_map, hnt]
  rw [hins, c2.allBlocks c3, hpos, c2.place_top hc, Option.bind_some]
  obtain ⟨X, Y, hL⟩ := hH.split hpm
  rw [hL] at hnew
  have htopm : paras (topParas (A ++ .para p :: B)) = paras (topParas A) ++ (.block p.id, p.text) :: paras (topParas B) := by
    rw [topParas_append, topParas_para]; simp [paras]
  by_cases ha : a = []
  · rw [if_pos ha, if_pos ha]
    obtain ⟨st', t1, t2⟩ := insertTableBefore_repr (hL ▸ hH.text) hnew
    obtain ⟨s', b1, b2, b3⟩ := Tabled.build (A := A) (B := .para p :: B) c2 hH c3 hr hcol t1 t2
      (by rw [hL]; exact List.perm_middle) (by
        rw [hL] at hsub
        exact hsub.trans (List.Sublist.append_left ((List.sublist_cons_self _ _)) _))
    rw [hmt, hnt, hls] at *
    exact ⟨s', by rw [b1]; rfl, b2, b3⟩
  · rw [if_neg ha, if_neg ha]
    have hne : p.text ≠ [] := by
      intro h0
      have : p.text.length = 0 := by rw [h0]; rfl
      rw [SPara.text_len, hc, List.length_append] at this
      exact ha (List.length_eq_zero_iff.mp (by omega))
    obtain ⟨st', t1, t2⟩ := insertTableAfter_repr (hL ▸ hH.text) hnew (.inr hne)
    have e0 : A ++ .para p :: B = (A ++ [.para p]) ++ B := by simp
    rw [e0] at c2 c3 hH hsub ⊢
    obtain ⟨s', b1, b2, b3⟩ := Tabled.build (A := A ++ [.para p]) (B := B) c2 hH c3 hr hcol t1 t2
      (by
        rw [hL, List.perm_iff_count]
        intro x
        simp only [List.count_append, List.count_cons]; omega) (by
        rw [hL] at hsub
        exact hsub.trans (List.Sublist.append_left ((List.sublist_cons_self _ _).cons₂ _) _))
    rw [hmt, hnt, hls] at *
    exact ⟨s', by rw [b1]; rfl, by simpa using b2, b3⟩

end Verif
