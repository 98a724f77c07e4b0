import Verif.Lemmas.TableType
import Verif.Lemmas.FlatBlock
/- Breaking a paragraph outside the tables of a document with tables. -/
namespace Verif
variable {s s' : Store} {d : Document} {f : Nat} {A B : List SItem} {p : SPara} {a b : List SChar}
open Store

/-- The frame that holds a paragraph outside the tables. -/
theorem Tabled.ownerFrame_top (h : Tabled s d f (A ++ .para p :: B)) :
    s.ownerFrame p.id (s.frames.len + 1) f = some (some f) := by
  obtain ⟨fr, f1, f2, f3, f4, f5, f6, f7⟩ := h.frame
  have hlen : 0 < s.frames.len := by
    have : f ∈ s.frames.keys := (s.frames.mem f).mpr (by rw [f1]; rfl)
    unfold IdMap.len
    exact List.length_pos_of_mem this
  obtain ⟨k, hk⟩ : ∃ k, s.frames.len = k + 1 := ⟨s.frames.len - 1, by omega⟩
  rw [hk]
  unfold Store.ownerFrame
  rw [f1, Option.bind_some, f6]
  have hp := h.positive p (by rw [flowParas_append]; simp [flowParas, SItem.paras])
  have key : ∀ l : List SItem, (∀ x ∈ l, x ∈ A ++ .para p :: B) →
      searchChildren (s.ownerFrame p.id (k + 1)) f p.id ((l ++ .para p :: B).map SItem.entry) = some (some f) := by
    intro l
    induction l with
    | nil =>
      intro _
      simp only [List.nil_append, List.map_cons, searchChildren, SItem.entry]
      rw [if_pos ⟨by omega, by simp⟩]
    | cons x l ih =>
      intro hx
      have ih := ih fun y hy => hx y (List.mem_cons_of_mem _ hy)
      have hxm := hx x (List.mem_cons_self ..)
      rw [List.cons_append, List.map_cons, searchChildren]
      by_cases hc : x.entry > 0 ∧ x.entry.toNat = p.id
      · rw [if_pos hc]
      · rw [if_neg hc]
        cases x with
        | para q => rw [if_neg (by simp only [SItem.entry]; omega), ih]
        | table t =>
          have ht := h.table t (mem_tablesOf.mpr hxm)
          obtain ⟨ar, a1, a2, a3, a4, a5, a6⟩ := ht.anchor
          have hpos := (h.freshFrames t.anchor (by rw [a1]; rfl)).1
          rw [if_pos (by simp only [SItem.entry]; omega)]
          have he : (-(SItem.table t).entry).toNat = t.anchor := by simp [SItem.entry]
          have hsub : s.ownerFrame p.id (k + 1) t.anchor = some none := by
            unfold Store.ownerFrame
            rw [a1, Option.bind_some, a5]
            simp only [searchChildren, Option.map_some]
            have : s.frameBlocks t.anchor = [] := by unfold Store.frameBlocks; rw [a1]; exact a4
            rw [this]; rfl
          rw [he, hsub, Option.bind_some]
          exact ih
  rw [key A fun x hx => List.mem_append_left _ hx]
  rfl

/-- Where the paragraph is listed. -/
theorem Tabled.childIdx (h : Tabled s d f (A ++ .para p :: B)) :
    ((A ++ .para p :: B).map SItem.entry).findIdx? (fun e => decide (e > 0) && e.toNat == p.id) = some A.length := by
  obtain ⟨L, hH, hsub⟩ := h.content
  have hpp := h.positive p (by rw [flowParas_append]; simp [flowParas, SItem.paras])
  have hnd := hH.ids_nodup
  rw [flowParas_append, flowParas_para, List.map_append, List.map_cons, List.nodup_append] at hnd
  rw [List.map_append, List.map_cons, List.findIdx?_append]
  have : (A.map SItem.entry).findIdx? (fun e => decide (e > 0) && e.toNat == p.id) = none := by
    rw [List.findIdx?_eq_none_iff]
    intro x hx
    obtain ⟨y, hy, rfl⟩ := List.mem_map.mp hx
    cases y with
    | para q =>
      have hq : q.id ∈ (flowParas A).map SPara.id := List.mem_map_of_mem (List.mem_flatMap.mpr ⟨_, hy, by simp [SItem.paras]⟩)
      have := hnd.2.2 _ hq p.id (by simp)
      simp [SItem.entry, this]
    | table t => simp [SItem.entry]; omega
  rw [this]
  simp [List.findIdx?_cons, SItem.entry]
  omega

theorem insertIdx_item (A B : List SItem) (p q : SPara) :
    ((A ++ .para p :: B).map SItem.entry).insertIdx (A.length + 1) (q.id : Int) =
      (A ++ .para p :: .para q :: B).map SItem.entry := by
  induction A with
  | nil => simp [SItem.entry]
  | cons x A ih => simpa using ih

/-- Positions after a paragraph was broken in two. -/
theorem placed_broken {X Y : List SPara} {n : Nat} (hp : Placed s (X ++ p :: Y)) (hc : p.chars = a ++ b)
    (hold : ∀ q ∈ X ++ p :: Y, ∀ x, s.blocks q.id = some x → ∃ x', s'.blocks q.id = some x' ∧ x'.documentPosition =
      if x.documentPosition > (charsBefore (paras X) : Int) then x.documentPosition + 1 else x.documentPosition)
    (hnew : ∃ x', s'.blocks n = some x' ∧ x'.documentPosition = ((charsBefore (paras X) + a.length + 1 : Nat) : Int)) :
    Placed s' (X ++ { p with chars := a } :: ⟨n, b, p.shape⟩ :: Y) := by
  intro Z q W e
  have hl : p.chars.length = a.length + b.length := by rw [hc]; simp
  rcases charsBefore_le e with ⟨V, h1, h2⟩ | ⟨V, h1, h2⟩
  · obtain ⟨x, k1, k2⟩ := hp Z q (V ++ p :: Y) (by rw [h1]; simp)
    obtain ⟨x', k3, k4⟩ := hold q (by rw [h1]; simp) x k1
    refine ⟨x', k3, ?_⟩
    rw [k4, if_neg, k2]
    rw [k2, h1, charsBefore_paras_two, charsBefore_paras_cons]
    push_cast; omega
  · cases V with
    | nil =>
      simp only [List.nil_append, List.cons.injEq] at h2
      obtain ⟨rfl, rfl⟩ := h2
      obtain ⟨x, k1, k2⟩ := hp X p Y rfl
      obtain ⟨x', k3, k4⟩ := hold p (by simp) x k1
      refine ⟨x', k3, ?_⟩
      rw [k4, if_neg, k2, h1]
      · simp
      · rw [k2]; omega
    | cons v V =>
      simp only [List.cons_append, List.cons.injEq] at h2
      obtain ⟨rfl, h2⟩ := h2
      cases V with
      | nil =>
        simp only [List.nil_append, List.cons.injEq] at h2
        obtain ⟨rfl, rfl⟩ := h2
        obtain ⟨x', k3, k4⟩ := hnew
        refine ⟨x', k3, ?_⟩
        rw [k4, h1, charsBefore_paras_two, charsBefore_paras_cons, charsBefore_paras_nil]
        push_cast; omega
      | cons w V =>
        simp only [List.cons_append, List.cons.injEq] at h2
        obtain ⟨rfl, rfl⟩ := h2
        obtain ⟨x, k1, k2⟩ := hp (X ++ p :: V) q W (by simp)
        obtain ⟨x', k3, k4⟩ := hold q (by simp) x k1
        refine ⟨x', k3, ?_⟩
        rw [k4, k2, h1, charsBefore_paras_two, charsBefore_paras_two, charsBefore_paras_cons, charsBefore_paras_cons, charsBefore_paras_cons]
        rw [if_pos (by push_cast; omega)]
        push_cast; omega

/-- Breaking a paragraph in two, on the content of the store. -/
theorem Carries.broken {L X' Y' : List Para} {X Y : List SPara} {ts : List Nat} {r : RopeSt} {n : Nat}
    (h : Carries s L (X ++ p :: Y) ts) (hc : p.chars = a ++ b) (hL : L = X' ++ (.block p.id, p.text) :: Y')
    (hn : n = s.next "block") (hr : Repr r (X' ++ (.block p.id, a.map Prod.fst) :: (.block n, b.map Prod.fst) :: Y'))
    (ht : s'.text = r)
    (hb : ∀ i, s'.blocks i = if i = n then some ((⟨n, b, p.shape⟩ : SPara).entity ((charsBefore (paras X) + a.length + 1 : Nat) : Int))
      else s.blocks i)
    (hf : ∀ j, s'.formatRuns j = if j = n then some (splitRunsAt (s.runsOf p.id) (utf8Len (a.map Prod.fst))).2
      else if j = p.id then some (splitRunsAt (s.runsOf p.id) (utf8Len (a.map Prod.fst))).1 else s.formatRuns j)
    (hi : ∀ j, s'.blockImages j = if j = n then some [] else if j = p.id then some [] else s.blockImages j)
    (hx : s'.next "block" = n + 1) :
    Carries s' (X' ++ (.block p.id, a.map Prod.fst) :: (.block n, b.map Prod.fst) :: Y')
      (X ++ { p with chars := a } :: ⟨n, b, p.shape⟩ :: Y) ts := by
  have hpm : p ∈ X ++ p :: Y := by simp
  have hnew : ∀ q ∈ X ++ p :: Y, q.id ≠ n := fun q hq => by have := h.fresh q hq; omega
  have hnd := h.ids_nodup
  simp only [List.map_append, List.map_cons, List.nodup_append, List.nodup_cons] at hnd
  have hneX : ∀ q ∈ X, q.id ≠ p.id := fun q hq => hnd.2.2 q.id (List.mem_map_of_mem hq) p.id (by simp)
  have hneY : ∀ q ∈ Y, q.id ≠ p.id := fun q hq e => hnd.2.1.1 (e ▸ List.mem_map_of_mem hq)
  have hmem : ∀ q ∈ X ++ { p with chars := a } :: ⟨n, b, p.shape⟩ :: Y,
      q = ⟨n, b, p.shape⟩ ∨ q = { p with chars := a } ∨ (q ∈ X ++ p :: Y ∧ q.id ≠ p.id ∧ q.id ≠ n) := by
    intro q hq
    simp only [List.mem_append, List.mem_cons] at hq
    rcases hq with hq | rfl | rfl | hq
    · exact .inr (.inr ⟨by simp [hq], hneX q hq, hnew q (by simp [hq])⟩)
    · exact .inr (.inl rfl)
    · exact .inl rfl
    · exact .inr (.inr ⟨by simp [hq], hneY q hq, hnew q (by simp [hq])⟩)
  have hidsP : ((X ++ { p with chars := a } :: ⟨n, b, p.shape⟩ :: Y).map SPara.id).Perm (n :: (X ++ p :: Y).map SPara.id) := by
    rw [List.perm_iff_count]
    intro x
    simp only [List.map_append, List.map_cons, List.count_append, List.count_cons]; omega
  have hpn : p.id ≠ n := hnew p hpm
  constructor
  · rw [ht]; exact hr
  · have := h.perm
    rw [hL, List.perm_iff_count] at this
    rw [List.perm_iff_count]
    intro x
    have := this x
    simp only [paras_append, paras_cons, List.count_append, List.count_cons, SPara.text] at this ⊢
    omega
  · refine (IdMap.keys_perm ?_ ?_).trans (.refl _)
    · refine hidsP.nodup_iff.mpr (List.nodup_cons.mpr ⟨?_, h.ids_nodup⟩)
      intro hm
      obtain ⟨q, hq, e⟩ := List.mem_map.mp hm
      exact hnew q hq e
    · intro i
      rw [hb, hidsP.mem_iff, List.mem_cons, ← h.keys.mem_iff, s.blocks.mem]
      by_cases e : i = n <;> simp [e]
  · intro q hq
    rw [hb]
    rcases hmem q hq with rfl | rfl | ⟨hq, h1, h2⟩
    · exact ⟨_, if_pos rfl, isBlock_entity _ _⟩
    · rw [if_neg hpn]
      obtain ⟨x, e1, e2⟩ := h.block p hpm
      exact ⟨x, e1, e2⟩
    · rw [if_neg h2]; exact h.block q hq
  · intro q hq
    have hst := h.formats p hpm
    rw [hc] at hst
    rw [hf]
    rcases hmem q hq with rfl | rfl | ⟨hq, h1, h2⟩
    · rw [if_pos rfl]; exact hst.right
    · rw [if_neg hpn, if_pos rfl]; exact hst.left
    · rw [if_neg h2, if_neg h1]; exact h.formats q hq
  · intro q hq
    rw [hi]
    rcases hmem q hq with rfl | rfl | ⟨hq, h1, h2⟩
    · rw [if_pos rfl]; rfl
    · rw [if_neg hpn, if_pos rfl]; rfl
    · rw [if_neg h2, if_neg h1]; exact h.images q hq
  · intro q hq
    rw [hx]
    rcases hmem q hq with rfl | rfl | ⟨hq, h1, h2⟩
    · show n < n + 1; omega
    · have := h.fresh p hpm; show p.id < n + 1; omega
    · have := h.fresh q hq; omega
  · intro i hi'
    rw [hx] at hi'
    have := h.fresh p hpm
    rw [hf, hi, if_neg (by omega), if_neg (by omega), if_neg (by omega), if_neg (by omega)]
    exact h.clean i (by omega)

theorem ShowsTable.transfer {t : STable} (h : ShowsTable s f t) (hf : ∀ g, g ∈ t.anchor :: t.cells.map SCell.frame → s'.frames g = s.frames g)
    (ht : s'.tables = s.tables) (hc : s'.tableCells = s.tableCells) : ShowsTable s' f t := by
  refine ⟨by rw [ht]; exact h.table, h.cells, h.order, by rw [hf _ (List.mem_cons_self ..)]; exact h.anchor, ?_⟩
  intro c hcm
  obtain ⟨c1, c2, c3, fr, c4, c5⟩ := h.cell c hcm
  exact ⟨by rw [hc]; exact c1, c2, c3, fr, by rw [hf _ (List.mem_cons_of_mem _ (List.mem_map_of_mem hcm))]; exact c4, c5⟩

/-- What surrounds an element that occurs once. -/
theorem sublist_around {α : Type} {U V X Y : List α} {x : α} (h : (U ++ x :: V).Sublist (X ++ x :: Y)) (hX : x ∉ X) (hY : x ∉ Y) :
    U.Sublist X ∧ V.Sublist Y := by
  obtain ⟨l1, l2, e, h1, h2⟩ := List.sublist_append_iff.mp h
  rcases List.append_eq_append_iff.mp e with ⟨c, e1, e2⟩ | ⟨c, e1, e2⟩
  · cases c with
    | nil =>
      simp only [List.append_nil, List.nil_append] at e1 e2
      subst e1
      rw [← e2] at h2
      exact ⟨h1, List.cons_sublist_cons.mp h2⟩
    | cons y c =>
      simp only [List.cons_append, List.cons.injEq] at e2
      obtain ⟨rfl, _⟩ := e2
      exact absurd (h1.subset (by rw [e1]; simp)) hX
  · cases c with
    | nil =>
      simp only [List.append_nil, List.nil_append] at e1 e2
      subst e1
      rw [e2] at h2
      exact ⟨h1, List.cons_sublist_cons.mp h2⟩
    | cons y c =>
      rw [e2] at h2
      rw [List.cons_append] at h2
      cases h2 with
      | cons _ h2 => exact absurd (h2.subset (by simp)) hY
      | cons_cons _ h2 => exact absurd (h2.subset (by simp)) hY

/-- `insert_block` outside the tables. -/
theorem Tabled.insertBlock_top (h : Tabled s d f (A ++ .para p :: B)) (ht : tablesOf (A ++ .para p :: B) ≠ [])
    (hc : p.chars = a ++ b) :
    ∃ s', s.insertBlock ((charsBefore (paras (flowParas A)) + a.length : Nat) : Int) =
        some (s', ⟨((charsBefore (paras (flowParas A)) + a.length + 1 : Nat) : Int), s.next "block"⟩, s.snapshot) ∧
      Tabled s' { d with blockCount := d.blockCount + 1 } f
        (A ++ .para { p with chars := a } :: .para ⟨s.next "block", b, p.shape⟩ :: B) ∧
      s'.lists = s.lists := by
  obtain ⟨L, hH, hsub⟩ := h.content
  have e : flowParas (A ++ .para p :: B) = flowParas A ++ p :: flowParas B := by rw [flowParas_append, flowParas_para]
  have hpm : p ∈ flowParas (A ++ .para p :: B) := by rw [e]; simp
  have hpl : Placed s (flowParas (A ++ .para p :: B)) := placed_of_seated (h.seated ht)
  obtain ⟨fr, f1, f2, f3, f4, f5, f6, f7⟩ := h.frame
  obtain ⟨rest, hr1, hr2⟩ := h.frames
  have hnew : ∀ q ∈ flowParas (A ++ .para p :: B), q.id ≠ s.next "block" := fun q hq => by have := hH.fresh q hq; omega
  have htxt : p.text = a.map Prod.fst ++ b.map Prod.fst := by simp [SPara.text, hc]
  have hoff : logicalOffsetToByte p.text (s.imagesOf p.id) (a.length : Int) =
      utf8Len (a.map Prod.fst) := by rw [hH.offset hpm, text_take hc]
  have himg : s.imagesOf p.id = [] := hH.images p hpm
  have hst := hH.stored hpm
  have hsp : s.storedPos p = (charsBefore (paras (flowParas A)) : Int) := by
    obtain ⟨b0, q1, q2⟩ := hpl _ p _ e
    simp [Store.storedPos, q1, q2]
  rw [hsp] at hst
  have hblocks : s.getBlocks ((flowParas (A ++ .para p :: B)).map SPara.id) = placed 0 (flowParas (A ++ .para p :: B)) := by
    rw [hH.getBlocks _ fun q hq => hq]
    apply map_entity_placed
    intro L p R e
    obtain ⟨b, h1, h2⟩ := hpl L p R e
    simp [Store.storedPos, h1, h2]
  have hid : (p.entity (charsBefore (paras (flowParas A)))).id = p.id := rfl
  unfold Store.insertBlock
  rw [h.docIdOf, Option.bind_some, h.document, Option.bind_some]
  have hdf : s.docFrames d.id = f :: rest := by unfold Store.docFrames; rw [h.document, ← hr1]; rfl
  rw [hdf, List.head?_cons, Option.bind_some, h.flowIds, Option.bind_some]
  dsimp only
  rw [hblocks, h.find e hc, Option.bind_some]
  dsimp only
  rw [hid, hH.content hpm, Option.bind_some]
  rw [hoff, htxt, splitAtByte_append, Option.bind_some, himg]
  dsimp only
  generalize hs1 : ((s.updateBlock (p.entity (charsBefore (paras (flowParas A))))).editRuns p.id fun _ =>
      (splitRunsAt (s.runsOf p.id) (utf8Len (a.map Prod.fst))).1).editImages p.id
        (fun _ => (splitImagesAt ([] : List (Img CharFormat)) (utf8Len (a.map Prod.fst))).1) = s1
  have h1f : s1.frames = s.frames := by subst hs1; rfl
  have h1b : ∀ i, s1.blocks i = s.blocks i := by
    intro i
    subst hs1
    by_cases hi : i = p.id
    · subst hi
      simp only [Store.editImages, Store.editRuns, Store.updateBlock, SPara.entity, IdMap.insert_get, if_true]
      rw [hst]
      simp [keepBlock, SPara.entity]
    · simp only [Store.editImages, Store.editRuns, Store.updateBlock, SPara.entity, IdMap.insert_get, if_neg hi]
  have h1t : s1.text = s.text := by subst hs1; rfl
  have h1c : s1.counters = s.counters := by subst hs1; rfl
  have h1d : s1.documents = s.documents := by subst hs1; rfl
  have h1o : s1.roots = s.roots := by subst hs1; rfl
  have h1l : s1.lists = s.lists := by subst hs1; rfl
  have h1tb : s1.tables = s.tables := by subst hs1; rfl
  have h1tc : s1.tableCells = s.tableCells := by subst hs1; rfl
  have h1n : s1.next "block" = s.next "block" := by simp [Store.next, h1c]
  have h1r : ∀ j, s1.formatRuns j = if j = p.id then
      some (splitRunsAt (s.runsOf p.id) (utf8Len (a.map Prod.fst))).1 else s.formatRuns j := by
    intro j; subst hs1; rfl
  have h1i : ∀ j, s1.blockImages j = if j = p.id then some [] else s.blockImages j := by
    intro j; subst hs1; rfl
  have hown : s1.ownerFrame p.id (s1.frames.len + 1) f = some (some f) := by
    have := h.ownerFrame_top
    rw [h1f]
    have cong : ∀ k g, s1.ownerFrame p.id k g = s.ownerFrame p.id k g := by
      intro k
      induction k with
      | zero => intro g; rfl
      | succ k ih =>
        intro g
        unfold Store.ownerFrame Store.frameBlocks
        rw [h1f, show s1.ownerFrame p.id k = s.ownerFrame p.id k from funext ih]
    rw [cong]; exact this
  rw [hown, Option.bind_some]
  dsimp only [Option.getD_some]
  rw [createBlock_new (fr := fr) (by rw [h1f]; exact f1) rfl (by
    intro j hj
    have hj' := f7.mem_iff.mp hj
    obtain ⟨q, hq, rfl⟩ := List.mem_map.mp hj'
    rw [h1b, hH.stored (mem_flowParas.mpr (.inl hq))]; rfl), Option.bind_some, h1n]
  dsimp only
  generalize hnx : s.next "block" = n at *
  generalize hs2 : (Store.editImages (Store.editRuns ({ s1 with
      counters := (s1.nextId "block").2.counters
      blocks := s1.blocks.insert n
        { p.entity (charsBefore (paras (flowParas A))) with
          id := n
          documentPosition := (p.entity (charsBefore (paras (flowParas A)))).documentPosition +
            (a.map Prod.fst).length + (((splitImagesAt ([] : List (Img CharFormat))
              (utf8Len (a.map Prod.fst))).1.length : Nat) : Int) + 1 }
      frames := s1.frames.insert f { fr with blocks := fr.blocks ++ [n] } } : Store) n
      fun _ => (splitRunsAt (s.runsOf p.id) (utf8Len (a.map Prod.fst))).2) n
      fun _ => (splitImagesAt ([] : List (Img CharFormat)) (utf8Len (a.map Prod.fst))).2) = s2
  have h2f : s2.frames = s.frames.insert f { fr with blocks := fr.blocks ++ [n] } := by
    subst hs2; rw [← h1f]; rfl
  have h2b : ∀ i, s2.blocks i = if i = n then some ((⟨n, b, p.shape⟩ : SPara).entity
      ((charsBefore (paras (flowParas A)) + a.length + 1 : Nat) : Int)) else s.blocks i := by
    intro i
    subst hs2
    simp only [Store.editImages, Store.editRuns, IdMap.insert_get, h1b]
    by_cases hi : i = n
    · simp [hi, SPara.entity, splitImagesAt]
    · simp [hi]
  have h2t : s2.text = s.text := by subst hs2; rw [← h1t]; rfl
  have h2c : s2.counters = (s.nextId "block").2.counters := by
    subst hs2; simp [Store.editImages, Store.editRuns, Store.nextId, h1c]
  have h2d : s2.documents = s.documents := by subst hs2; rw [← h1d]; rfl
  have h2o : s2.roots = s.roots := by subst hs2; rw [← h1o]; rfl
  have h2l : s2.lists = s.lists := by subst hs2; rw [← h1l]; rfl
  have h2tb : s2.tables = s.tables := by subst hs2; rw [← h1tb]; rfl
  have h2tc : s2.tableCells = s.tableCells := by subst hs2; rw [← h1tc]; rfl
  have h2r : ∀ j, s2.formatRuns j = if j = n then
      some (splitRunsAt (s.runsOf p.id) (utf8Len (a.map Prod.fst))).2 else
      if j = p.id then some (splitRunsAt (s.runsOf p.id) (utf8Len (a.map Prod.fst))).1 else s.formatRuns j := by
    intro j; rw [← h1r]; subst hs2; rfl
  have h2i : ∀ j, s2.blockImages j = if j = n then some [] else if j = p.id then some [] else s.blockImages j := by
    intro j; rw [← h1i]; subst hs2; rfl
  -- the rope
  obtain ⟨X', Y', hL⟩ := hH.split hpm
  have htx := hH.text
  rw [hL, htxt] at htx
  obtain ⟨r, hr, hrep⟩ := splitBlock_repr (new := n) htx (by
    rw [← htxt, ← hL]
    intro hm
    have := (hH.perm.map Prod.fst).mem_iff.mp hm
    rw [List.map_append, List.mem_append, paras_fst] at this
    rcases this with hm | hm
    · obtain ⟨q, hq, e⟩ := List.mem_map.mp hm
      exact hnew q hq (by simpa using e)
    · simp at hm)
  rw [h2t, hr, Option.bind_some]
  have hfr2 : (s2.withText r).frames f = some { fr with blocks := fr.blocks ++ [n] } := by
    show s2.frames f = _
    rw [h2f]; simp
  rw [hfr2, Option.bind_some]
  dsimp only
  rw [f6, h.childIdx]
  simp only [Option.map_some, Option.getD_some]
  rw [insertIdx_item A B p ⟨n, b, p.shape⟩]
  generalize hs3 : ((s2.withText r).updateFrame { fr with
    blocks := fr.blocks ++ [n]
    childOrder := (A ++ .para p :: .para ⟨n, b, p.shape⟩ :: B).map SItem.entry }) = s3
  have h3f : ∀ g, s3.frames g = if g = f then some { fr with
      blocks := fr.blocks ++ [n]
      childOrder := (A ++ .para p :: .para ⟨n, b, p.shape⟩ :: B).map SItem.entry } else s.frames g := by
    intro g
    subst hs3
    have e : (s2.withText r).frames = s2.frames := rfl
    simp only [Store.updateFrame, IdMap.insert_get, f2, e, h2f]
    by_cases hg : g = f
    · simp [hg, Store.keepFrame]
    · simp [hg]
  have h3b : s3.blocks = s2.blocks := by subst hs3; rfl
  have h3o : s3.roots = s.roots := by rw [← h2o]; subst hs3; rfl
  have h3d : s3.documents = s.documents := by rw [← h2d]; subst hs3; rfl
  have h3l : s3.lists = s.lists := by rw [← h2l]; subst hs3; rfl
  have h3tb : s3.tables = s.tables := by rw [← h2tb]; subst hs3; rfl
  have h3tc : s3.tableCells = s.tableCells := by rw [← h2tc]; subst hs3; rfl
  have h3r : s3.formatRuns = s2.formatRuns := by subst hs3; rfl
  have h3i : s3.blockImages = s2.blockImages := by subst hs3; rfl
  have h3c : s3.counters = (s.nextId "block").2.counters := by rw [← h2c]; subst hs3; rfl
  have h3t : s3.text = r := by subst hs3; rfl
  have h3n : s3.next "block" = n + 1 := by
    unfold Store.next; rw [h3c]
    have := next_self "block" s
    unfold Store.next at this hnx
    rw [this, hnx]
  have h3nk : ∀ k, k ≠ "block" → s3.next k = s.next k := by
    intro k hk
    unfold Store.next; rw [h3c]
    exact next_other (a := "block") (b := k) (Ne.symm hk) s
  have hH' := hH
  rw [e] at hH'
  have hC3 : Carries s3 (X' ++ (.block p.id, a.map Prod.fst) :: (.block n, b.map Prod.fst) :: Y')
      (flowParas A ++ { p with chars := a } :: ⟨n, b, p.shape⟩ :: flowParas B)
      ((tablesOf (A ++ .para p :: B)).map fun t => t.table.id) :=
    hH'.broken hc hL hnx.symm hrep h3t (by rw [h3b]; exact h2b) (by rw [h3r]; exact h2r) (by rw [h3i]; exact h2i) h3n
  -- positions
  have hdropeq : (placed 0 (flowParas (A ++ .para p :: B))).drop ((flowParas A).length + 1) =
      placed ((charsBefore (paras (flowParas A)) + (p.chars.length + 1) : Nat) : Int) (flowParas B) := by
    rw [e, placed_append, List.drop_append, List.drop_eq_nil_of_le (by rw [placed_length]; omega), placed_length]
    simp [placed, SPara.text]
  rw [hdropeq]
  have hpn : (p.id : Nat) ≠ n := hnew p hpm
  have hBm : ∀ q ∈ flowParas B, q ∈ flowParas (A ++ .para p :: B) := fun q hq => by rw [e]; simp [hq]
  have hbk : ∀ x ∈ placed ((charsBefore (paras (flowParas A)) + (p.chars.length + 1) : Nat) : Int) (flowParas B),
      ∃ q ∈ flowParas B, x = q.entity (s.storedPos q) := by
    intro x hx
    have : x ∈ placed 0 (flowParas (A ++ .para p :: B)) := List.mem_of_mem_drop (by rw [hdropeq]; exact hx)
    have hid' := List.mem_map_of_mem (f := Block.id) hx
    rw [placed_ids] at hid'
    obtain ⟨q, hq, hqe⟩ := List.mem_map.mp hid'
    rw [← hblocks, hH.getBlocks _ fun q hq => hq] at this
    obtain ⟨q', hq', rfl⟩ := List.mem_map.mp this
    have := hH.unique (hBm q hq) hq' hqe.symm
    subst this
    exact ⟨q', hq, rfl⟩
  have hnB : ((placed ((charsBefore (paras (flowParas A)) + (p.chars.length + 1) : Nat) : Int) (flowParas B)).map Block.id).Nodup := by
    rw [placed_ids]
    have := hH.ids_nodup
    rw [e, List.map_append, List.map_cons, List.nodup_append, List.nodup_cons] at this
    exact this.2.1.2
  obtain ⟨k1, k2, m, k3⟩ := shiftStored_get (s := s3) (n := 1) hnB (by
    intro x hx
    obtain ⟨q, hq, rfl⟩ := hbk x hx
    show s3.blocks q.id = _
    rw [h3b, h2b, if_neg (hnew q (hBm q hq))]
    exact hH.stored (hBm q hq))
  have hC4 := hC3.updateBlocks (bs := (placed ((charsBefore (paras (flowParas A)) + (p.chars.length + 1) : Nat) : Int)
      (flowParas B)).map fun b => ({ b with documentPosition := b.documentPosition + 1 } : Block)) (by
    intro x hx
    obtain ⟨y, hy, rfl⟩ := List.mem_map.mp hx
    obtain ⟨q, hq, rfl⟩ := hbk y hy
    exact ⟨q, by simp [hq], rfl⟩)
  have hP4 : Placed (s3.shiftStored (placed ((charsBefore (paras (flowParas A)) + (p.chars.length + 1) : Nat) : Int)
      (flowParas B)) 1) (flowParas A ++ { p with chars := a } :: ⟨n, b, p.shape⟩ :: flowParas B) := by
    refine placed_broken (by rw [← e]; exact hpl) hc ?_ ?_
    · intro q hq x hqx
      rw [← e] at hq
      have hqx' := hqx
      rw [hH.stored hq] at hqx'
      cases hqx'
      by_cases hB : q ∈ flowParas B
      · have hx : q.entity (s.storedPos q) ∈ placed ((charsBefore (paras (flowParas A)) + (p.chars.length + 1) : Nat) : Int) (flowParas B) := by
          have : q.id ∈ (placed ((charsBefore (paras (flowParas A)) + (p.chars.length + 1) : Nat) : Int) (flowParas B)).map Block.id := by
            rw [placed_ids]; exact List.mem_map_of_mem hB
          obtain ⟨y, hy, hye⟩ := List.mem_map.mp this
          obtain ⟨q', hq', rfl⟩ := hbk y hy
          have := hH.unique hq (hBm q' hq') hye
          subst this
          exact hy
        refine ⟨_, k1 _ hx, ?_⟩
        rw [if_pos]
        obtain ⟨U, V, eB⟩ := List.append_of_mem hB
        obtain ⟨bb, q1, q2⟩ := hpl (flowParas A ++ p :: U) q V (by rw [e, eB]; simp)
        have : (q.entity (s.storedPos q)).documentPosition = bb.documentPosition := by
          simp [SPara.entity, Store.storedPos, q1]
        rw [this, q2, charsBefore_paras_two, charsBefore_paras_cons]
        push_cast; omega
      · refine ⟨_, (k2 q.id ?_).trans (by rw [h3b, h2b, if_neg (hnew q hq)]; exact hH.stored hq), ?_⟩
        · rw [placed_ids]
          intro hm
          obtain ⟨q', hq', he⟩ := List.mem_map.mp hm
          have := hH.unique hq (hBm q' hq') he
          exact hB (this ▸ hq')
        · rw [if_neg]
          have hq' := hq
          rw [e] at hq'
          rcases List.mem_append.mp hq' with hA | hq'
          · obtain ⟨U, V, eA⟩ := List.append_of_mem hA
            obtain ⟨bb, q1, q2⟩ := hpl U q (V ++ p :: flowParas B) (by rw [e, eA]; simp)
            have : (q.entity (s.storedPos q)).documentPosition = bb.documentPosition := by
              simp [SPara.entity, Store.storedPos, q1]
            rw [this, q2, eA, charsBefore_paras_two, charsBefore_paras_cons]
            push_cast; omega
          · rcases List.mem_cons.mp hq' with rfl | hq'
            · simp [SPara.entity, hsp]
            · exact absurd hq' hB
    · refine ⟨_, (k2 n ?_).trans (by rw [h3b, h2b, if_pos rfl]), rfl⟩
      rw [placed_ids]
      intro hm
      obtain ⟨q', hq', he⟩ := List.mem_map.mp hm
      exact hnew q' (hBm q' hq') he
  have hsubl : (paras (topParas A ++ { p with chars := a } :: ⟨n, b, p.shape⟩ :: topParas B)).Sublist
      (X' ++ (.block p.id, a.map Prod.fst) :: (.block n, b.map Prod.fst) :: Y') := by
    have hnd := hH.text.nodup
    rw [hL, topParas_append, topParas_para, paras_append, paras_cons] at hsub
    rw [hL, List.map_append, List.map_cons, List.nodup_append, List.nodup_cons] at hnd
    obtain ⟨w1, w2⟩ := sublist_around hsub
      (fun hm => hnd.2.2 _ (List.mem_map_of_mem hm) _ (List.mem_cons_self ..) rfl)
      (fun hm => hnd.2.1.1 (List.mem_map_of_mem hm))
    rw [paras_append, paras_cons, paras_cons]
    exact w1.append ((w2.cons_cons _).cons_cons _)
  have hpos : (p.entity (charsBefore (paras (flowParas A)))).documentPosition +
      ((a.map Prod.fst).length : Int) + (((splitImagesAt ([] : List (Img CharFormat))
        (utf8Len (a.map Prod.fst))).1.length : Nat) : Int) + 1 =
      ((charsBefore (paras (flowParas A)) + a.length + 1 : Nat) : Int) := by
    simp [SPara.entity, splitImagesAt]
  rw [hpos]
  refine ⟨_, rfl, ?_, ?_⟩
  · have et : tablesOf (A ++ .para { p with chars := a } :: .para ⟨n, b, p.shape⟩ :: B) = tablesOf (A ++ .para p :: B) := by
      simp only [tablesOf_append, tablesOf_para]
    have etf : tableFrames (A ++ .para { p with chars := a } :: .para ⟨n, b, p.shape⟩ :: B) = tableFrames (A ++ .para p :: B) := by
      unfold tableFrames; rw [et]
    have ecs : cellsOf (A ++ .para { p with chars := a } :: .para ⟨n, b, p.shape⟩ :: B) = cellsOf (A ++ .para p :: B) := by
      unfold cellsOf; rw [et]
    have etp : topParas (A ++ .para { p with chars := a } :: .para ⟨n, b, p.shape⟩ :: B) =
        topParas A ++ { p with chars := a } :: ⟨n, b, p.shape⟩ :: topParas B := by
      rw [topParas_append, topParas_para, topParas_para]
    have efl : flowParas (A ++ .para { p with chars := a } :: .para ⟨n, b, p.shape⟩ :: B) =
        flowParas A ++ { p with chars := a } :: ⟨n, b, p.shape⟩ :: flowParas B := by
      rw [flowParas_append, flowParas_para, flowParas_para]
    generalize hs4 : s3.shiftStored (placed ((charsBefore (paras (flowParas A)) + (p.chars.length + 1) : Nat) : Int)
      (flowParas B)) 1 = s4 at *
    have hfne : f ∉ tableFrames (A ++ .para p :: B) := (List.nodup_cons.mp h.distinct.1).1
    constructor
    · show ∃ r r', s4.roots 1 = some r ∧ s4.roots r.id = some r' ∧ _
      rw [k3]; show ∃ r r', s3.roots 1 = some r ∧ s3.roots r.id = some r' ∧ _
      rw [h3o]; exact h.root
    · simp only [Store.updateDocument, IdMap.insert_get, if_true]
      rw [k3]
      simp only [h3d, h.document]
      rfl
    · rw [et, efl, etp]
      refine ⟨_, ?_, hsubl⟩
      have hC5 := hC4
      rw [show s3.updateBlocks _ = s4 from hs4] at hC5
      exact hC5.of_same rfl rfl rfl rfl rfl
    · refine ⟨{ fr with
          blocks := fr.blocks ++ [n]
          childOrder := (A ++ .para p :: .para ⟨n, b, p.shape⟩ :: B).map SItem.entry }, ?_, f2, f3, f4, f5, ?_, ?_⟩
      · show s4.frames f = _
        rw [k3]; exact (h3f f).trans (if_pos rfl)
      · simp [SItem.entry]
      · rw [etp]
        refine (f7.append_right [n]).trans ?_
        rw [topParas_append, topParas_para]
        simp only [List.map_append, List.map_cons, List.append_assoc, List.cons_append]
        refine List.Perm.append_left _ (List.Perm.cons _ ?_)
        exact List.perm_append_singleton n ((topParas B).map SPara.id)
    · rw [et]
      intro t htm
      refine (h.table t htm).transfer (s' := s4.updateDocument _) ?_ (by rw [k3]; exact h3tb) (by rw [k3]; exact h3tc)
      intro g hg
      have hgf : g ≠ f := by
        rintro rfl
        exact hfne (List.mem_flatMap.mpr ⟨t, htm, hg⟩)
      show s4.frames g = _
      rw [k3]; exact (h3f g).trans (if_neg hgf)
    · rw [etf]; exact h.frames
    · rw [etf, ecs]; exact h.distinct
    · rw [etf]
      intro g hg
      have hg : (s4.frames g).isSome := hg
      rw [k3] at hg
      have hg : (s3.frames g).isSome := hg
      rw [h3f] at hg
      by_cases hgf : g = f
      · rw [hgf]; exact List.mem_cons_self ..
      · rw [if_neg hgf] at hg; exact h.onlyFrames g hg
    · rw [et]; exact h.tables
    · intro g hg
      have hg : (s4.frames g).isSome := hg
      rw [k3] at hg
      have hg : (s3.frames g).isSome := hg
      have : (s.frames g).isSome := by
        rw [h3f] at hg
        by_cases hgf : g = f
        · rw [hgf, f1]; rfl
        · rwa [if_neg hgf] at hg
      have := h.freshFrames g this
      refine ⟨this.1, ?_⟩
      show g < s4.next "frame"
      rw [k3]; show g < s3.next "frame"
      rw [h3nk "frame" (by decide)]; exact this.2
    · intro t htm
      have htm : (s4.tables t).isSome := htm
      rw [k3] at htm
      have htm : (s3.tables t).isSome := htm
      rw [h3tb] at htm
      show t < s4.next "table"
      rw [k3]; show t < s3.next "table"
      rw [h3nk "table" (by decide)]; exact h.freshTables t htm
    · intro t htm
      have htm : (s4.tableCells t).isSome := htm
      rw [k3] at htm
      have htm : (s3.tableCells t).isSome := htm
      rw [h3tc] at htm
      show t < s4.next "table_cell"
      rw [k3]; show t < s3.next "table_cell"
      rw [h3nk "table_cell" (by decide)]; exact h.freshCells t htm
    · intro t htm
      have htm : (s4.tables t).isSome := htm
      rw [k3] at htm
      have htm : (s3.tables t).isSome := htm
      rw [h3tb] at htm
      have := h.onlyTables t htm
      simpa only [tablesOf_append, tablesOf_para] using this
    · intro t htm
      have htm : (s4.tableCells t).isSome := htm
      rw [k3] at htm
      have htm : (s3.tableCells t).isSome := htm
      rw [h3tc] at htm
      have := h.onlyCells t htm
      simpa only [cellsOf_append, cellsOf_para] using this
    · rw [efl]
      intro q hq
      simp only [List.mem_append, List.mem_cons] at hq
      have hp0 := h.positive p hpm
      have hp1 := hH.fresh p hpm
      rcases hq with hq | rfl | rfl | hq
      · exact h.positive q (by rw [e]; simp [hq])
      · exact hp0
      · show 0 < n; omega
      · exact h.positive q (by rw [e]; simp [hq])
    · rw [etp]; simp
    · rw [efl]
      intro _
      exact seated_of_placed hP4
  · rw [k3]; exact h3l

end Verif
