import Verif.Spec.TableHistory
import Verif.Props.TableTypeOver
import Verif.Props.DeleteTabled
import Verif.Props.BoxFormats
/-
C101: histories of calls on documents with tables.
-/
namespace Verif
variable {s : Store} {d : Document} {f : Nat} {items : List SItem}
open Store

theorem charTotal_of_paras {A B : List SPara} (h : paras A = paras B) : charTotal A = charTotal B ∧ A.length = B.length := by
  have e1 : ∀ X : List SPara, charTotal X = ((paras X).map fun x => x.2.length).sum := by
    intro X; simp [charTotal, paras, Function.comp_def]
  rw [e1, e1, h]
  exact ⟨rfl, by rw [← paras_length, ← paras_length, h]⟩

theorem tablesOf_arrangement {items' : List SItem} (g : SPara → SPara) (h : items'.map (SItem.on g) = items.map (SItem.on g))
    (ht : tablesOf items ≠ []) : tablesOf items' ≠ [] := by
  intro e
  have := congrArg tablesOf h
  rw [tablesOf_on, tablesOf_on, e] at this
  simp at this
  exact ht this

/-- What is kept of a document: which one it is, its lists, and that it counts its characters and paragraphs right. -/
def Keeps (s : Store) (d : Document) (items : List SItem) (s' : Store) (d' : Document) (items' : List SItem) : Prop :=
  d'.id = d.id ∧ s'.lists = s.lists ∧ (Counted d (flowParas items) → Counted d' (flowParas items'))

theorem emptyTable_paras {t : STable} {rows columns : Nat} (h : EmptyTable t rows columns) :
    charTotal (t.cells.flatMap SCell.paras) = 0 ∧ (t.cells.flatMap SCell.paras).length = rows * columns := by
  have h1 : t.cells.length = rows * columns := by
    have := congrArg List.length h.places
    simpa [List.map_const', List.sum_replicate_nat] using this
  have h2 := h.cells
  rw [← h1]
  generalize t.cells = cs at h2
  clear h1
  induction cs with
  | nil => simp [charTotal]
  | cons c cs ih =>
    obtain ⟨i, e, _⟩ := h2 c (by simp)
    obtain ⟨k1, k2⟩ := ih fun x hx => h2 x (by simp [hx])
    rw [List.flatMap_cons, charTotal_append, e, List.length_append, k1, k2]
    simp [charTotal]
    omega

/-- **C101 (one call).** -/
theorem C101_call (env : SearchEnv) (h : Tabled s d f items) (ht : tablesOf items ≠ []) (c : TabCall) (hc : c.able items) :
    ∃ s' d' items', c.run env s = some s' ∧ Tabled s' d' f items' ∧ tablesOf items' ≠ [] ∧ c.effect items items' ∧
      Keeps s d items s' d' items' := by
  cases c with
  | type pos t =>
    obtain ⟨s', u, items', h1, h2, h3, h4, h5⟩ := C68_insert_text h pos hc t
    refine ⟨s', _, items', by simp only [TabCall.run, h1]; rfl, h2, tablesOf_arrangement _ h4 ht, ⟨h3, h4⟩, rfl, h5, ?_⟩
    rintro ⟨c1, c2⟩
    obtain ⟨k1, k2⟩ := charTotal_typeAt t h.flow_nonempty hc
    rw [h3]
    refine ⟨?_, ?_⟩
    · show d.characterCount + t.length = _; rw [k1, c1]; push_cast; rfl
    · show d.blockCount = _; rw [k2, c2]
  | typeOver x y t =>
    obtain ⟨n, p, k, l, hp, hkl, hl, hx, hy⟩ := hc
    obtain ⟨s', snap, items', h1, h2, h3, h4, _, h5, _⟩ := C68_type_over h ht hp hkl hl x y hx hy t
    refine ⟨s', _, items', by simp only [TabCall.run, h1]; rfl, h2, tablesOf_arrangement _ h4 ht, ⟨h3, h4⟩, rfl, h5, ?_⟩
    rintro ⟨c1, c2⟩
    obtain ⟨L, R, e, hL, hst⟩ := para_split hp
    have hcc : p.chars = p.chars.take k ++ (p.chars.take l).drop k ++ p.chars.drop l := by
      have : p.chars.take k = (p.chars.take l).take k := by rw [List.take_take]; congr 1; omega
      rw [this, List.take_append_drop, List.take_append_drop]
    have l1 : (p.chars.take k).length = k := by simp; omega
    have l2 : ((p.chars.take l).drop k).length = l - k := by simp; omega
    have hdel := deleteBetween_within L R hcc
    have hty := typeAt_eq (p := { p with chars := p.chars.take k ++ p.chars.drop l }) (a := p.chars.take k) (b := p.chars.drop l) L R t rfl
    rw [hst] at hx hy
    rw [l1, l2, show charsBefore (paras L) + (k + (l - k)) = max x y by omega, ← hx] at hdel
    rw [l1, ← hx] at hty
    rw [e] at h3 c1 c2
    rw [hdel, hty] at h3
    rw [h3]
    refine ⟨?_, ?_⟩
    · show d.characterCount - (l - k : Nat) + t.length = _
      rw [c1, charTotal_append, charTotal_cons, charTotal_append, charTotal_cons]
      simp [styled]
      omega
    · show d.blockCount = _
      rw [c2]; simp
  | setFormat dto x y =>
    obtain ⟨s', inv, items', h1, h2, h3, h4, h5, h6⟩ := C98_set_text_format h (h.seated ht) dto x y
    refine ⟨s', _, items', by simp only [TabCall.run, h1]; rfl, h2, tablesOf_arrangement _ h5 ht, ⟨h4, h5⟩, rfl, h6, ?_⟩
    rintro ⟨c1, c2⟩
    obtain ⟨k1, k2⟩ := charTotal_of_paras (reformatDoc_text (m := mergeSet dto) (min x y) (max x y) 0 (flowParas items))
    rw [h4]
    exact ⟨by rw [k1]; exact c1, by rw [k2]; exact c2⟩
  | mergeFormat dto x y =>
    obtain ⟨s', inv, items', h1, h2, h3, h4, h5, h6⟩ := C98_merge_text_format h (h.seated ht) dto x y
    refine ⟨s', _, items', by simp only [TabCall.run, h1]; rfl, h2, tablesOf_arrangement _ h5 ht, ⟨h4, h5⟩, rfl, h6, ?_⟩
    rintro ⟨c1, c2⟩
    obtain ⟨k1, k2⟩ := charTotal_of_paras (reformatDoc_text (m := mergeMerge dto) (min x y) (max x y) 0 (flowParas items))
    rw [h4]
    exact ⟨by rw [k1]; exact c1, by rw [k2]; exact c2⟩
  | paragraphFormat dto x y =>
    obtain ⟨s', items', h1, h2, h3, h4, h5, h6⟩ := C98_set_block_format_partial h (h.seated ht) dto x y hc
    refine ⟨s', _, items', by simp only [TabCall.run, h1]; rfl, h2, tablesOf_arrangement _ h5 ht, ⟨h4, h5⟩, rfl, h6, ?_⟩
    rintro ⟨c1, c2⟩
    obtain ⟨k1, k2⟩ := charTotal_of_paras (reshapeDoc_text (applyBlockFormat dto) (touches (min x y) (max x y)) 0 (flowParas items))
    rw [h4]
    exact ⟨by rw [k1]; exact c1, by rw [k2]; exact c2⟩
  | replaceAll q rep =>
    obtain ⟨s', r, items', h1, h2, h3, h4, _, h5, _⟩ := C100_replace_all_partial h ht env q rep hc.1 hc.2
    refine ⟨s', _, items', by simp only [TabCall.run, h1]; rfl, h2, tablesOf_arrangement _ h4 ht, ⟨h3, h4⟩, rfl, h5, ?_⟩
    rintro ⟨c1, c2⟩
    refine ⟨?_, ?_⟩
    · show d.characterCount + ((charTotal (flowParas items') : Int) - charTotal (flowParas items)) = _
      rw [c1]; omega
    · show d.blockCount = _
      rw [h3, c2]; simp
  | replaceOne q rep =>
    obtain ⟨s', r, h1, h5, h2, h3⟩ := C100_replace_one h ht env q rep hc
    have hsplit : (∀ p ∈ flowParas items, occurrences q p.text = []) ∨
        ∃ L p R o os, flowParas items = L ++ p :: R ∧ (∀ x ∈ L, occurrences q x.text = []) ∧ occurrences q p.text = o :: os := by
      generalize flowParas items = ps
      induction ps with
      | nil => left; intro p hp; simp at hp
      | cons x ps ih =>
        cases hx : occurrences q x.text with
        | cons o os => right; exact ⟨[], x, ps, o, os, rfl, by simp, hx⟩
        | nil =>
          rcases ih with ih | ⟨L, p, R, o, os, e, hL, ho⟩
          · left
            intro p hp
            rcases List.mem_cons.mp hp with rfl | hp
            · exact hx
            · exact ih p hp
          · right
            refine ⟨x :: L, p, R, o, os, by rw [e]; rfl, ?_, ho⟩
            intro y hy
            rcases List.mem_cons.mp hy with rfl | hy
            · exact hx
            · exact hL y hy
    rcases hsplit with hnone | ⟨L, p, R, o, os, e, hL, ho⟩
    · refine ⟨s', d, items, by simp only [TabCall.run, h1]; rfl, (h2 hnone).1, ht, ⟨fun _ => rfl, ?_⟩, rfl, h5, id⟩
      intro L p R o os e _ ho
      have := hnone p (by rw [e]; simp)
      rw [ho] at this; cases this
    · obtain ⟨items', k1, k2, k3, _⟩ := h3 L p R o os e hL ho
      refine ⟨s', _, items', by simp only [TabCall.run, h1]; rfl, k1, tablesOf_arrangement _ k3 ht, ⟨?_, ?_⟩, rfl, h5, ?_⟩
      · intro hnone
        have := hnone p (by rw [e]; simp)
        rw [ho] at this; cases this
      · intro L' p' R' o' os' e' hL' ho'
        obtain ⟨items'', _, m2, _⟩ := h3 L' p' R' o' os' e' hL' ho'
        obtain ⟨rfl, rfl, rfl⟩ := first_unique (q := q) hL hL' ho ho' (e.symm.trans e')
        rw [ho] at ho'; cases ho'
        exact ⟨k2, k3⟩
      · rintro ⟨c1, c2⟩
        have hocc : OccursAt q o p.text := (mem_occurrences hc).mp (by rw [ho]; simp)
        obtain ⟨x, y, hx, hxl⟩ := hocc
        have hlen : o + q.length ≤ p.chars.length := by
          rw [← SPara.text_len, hx]; simp; omega
        rw [k2]
        rw [e] at c1 c2
        refine ⟨?_, ?_⟩
        · show d.characterCount + ((rep.length : Int) - q.length) = _
          rw [c1, charTotal_append, charTotal_cons, charTotal_append, charTotal_cons]
          simp [rewriteAt, styled]
          omega
        · show d.blockCount = _
          rw [c2]; simp
  | breakAt pos =>
    obtain ⟨A, p, k, B, hA⟩ := hc
    obtain ⟨rfl, hk, hpos⟩ := hA
    obtain ⟨s', new, snap, h1, h2, h3, h4, _⟩ := C69_insert_block_partial h ht k hk pos hpos
    refine ⟨s', _, _, by simp only [TabCall.run, h1]; rfl, h2, ?_, ⟨A, p, k, B, new, ⟨rfl, hk, hpos⟩, h3, rfl⟩, rfl, h4, ?_⟩
    · intro e0
      apply ht
      simpa [tablesOf] using e0
    · rintro ⟨c1, c2⟩
      simp only [flowParas_append, flowParas_para] at c1 c2 ⊢
      refine ⟨?_, ?_⟩
      · show d.characterCount = _
        rw [c1]
        simp only [charTotal_append, charTotal_cons, List.length_take, List.length_drop]
        congr 1
        omega
      · show d.blockCount + 1 = _
        rw [c2]; simp; omega
  | insertTable pos rows columns =>
    obtain ⟨hr, hcol, A, p, k, B, hA⟩ := hc
    obtain ⟨rfl, hk, hpos⟩ := hA
    obtain ⟨s', d', t, snap, h1, h2, h3, h4, h5, _⟩ := C67_insert_table h pos pos rows columns k hr hcol hk (by rw [← hpos]; omega)
    refine ⟨s', d', _, by simp only [TabCall.run, h1]; rfl, h3, ?_, ⟨A, p, k, B, t, ⟨rfl, hk, hpos⟩, h2, rfl⟩, by rw [h4], h5, ?_⟩
    · intro e0
      split at e0 <;> simp [tablesOf] at e0
    · rintro ⟨c1, c2⟩
      obtain ⟨m1, m2⟩ := emptyTable_paras h2
      have hct : charTotal (flowParas (A ++ if k = 0 then .table t :: .para p :: B else .para p :: .table t :: B)) =
            charTotal (flowParas (A ++ .para p :: B)) ∧
          (flowParas (A ++ if k = 0 then .table t :: .para p :: B else .para p :: .table t :: B)).length =
            (flowParas (A ++ .para p :: B)).length + rows * columns := by
        split
        all_goals simp only [flowParas_append, flowParas_para, flowParas_table, charTotal_append, charTotal_cons, List.length_append, List.length_cons, m1, m2]
        all_goals omega
      rw [h4]
      refine ⟨?_, ?_⟩
      · show d.characterCount = _
        rw [hct.1]; exact c1
      · show d.blockCount + rows * columns = _
        rw [hct.2, c2]; push_cast; rfl
  | erase x y =>
    obtain ⟨P, T, n, p, k, l, rfl, hp, hkl, hl, hx, hy⟩ := hc
    have hT : T ≠ [] := by
      rintro rfl
      apply ht; rw [tablesOf_trailing]
    obtain ⟨s', items', snap, h1, h2, h3, h4, h5, _⟩ := C69_delete_partial h hT hp hkl hl (position := x) (anchor := y) (by omega) (by omega)
    obtain ⟨L, R, e, hL, hst⟩ := para_split hp
    have hcc : p.chars = p.chars.take k ++ (p.chars.take l).drop k ++ p.chars.drop l := by
      have : p.chars.take k = (p.chars.take l).take k := by rw [List.take_take]; congr 1; omega
      rw [this, List.take_append_drop, List.take_append_drop]
    have l1 : (p.chars.take k).length = k := by simp; omega
    have l2 : ((p.chars.take l).drop k).length = l - k := by simp; omega
    have hdel := deleteBetween_within L R hcc
    rw [hst] at hx hy
    rw [l1, l2, show charsBefore (paras L) + (k + (l - k)) = max x y by omega, ← hx] at hdel
    have hset : flowParas items' = L ++ { p with chars := p.chars.take k ++ p.chars.drop l } :: R := by
      rw [h3, e, ← hL]; simp
    refine ⟨s', _, items', by simp only [TabCall.run, h1]; rfl, h2, tablesOf_arrangement _ h4 ht, ⟨by rw [e, hdel, hset], h4⟩, rfl, h5, ?_⟩
    rintro ⟨c1, c2⟩
    rw [e] at c1 c2
    rw [hset]
    refine ⟨?_, ?_⟩
    · show d.characterCount - (l - k : Nat) = _
      rw [c1, charTotal_append, charTotal_cons, charTotal_append, charTotal_cons]
      simp
      omega
    · show d.blockCount = _
      rw [c2]; simp
  | tableFormat id fmt =>
    obtain ⟨t, hm, rfl⟩ := hc
    obtain ⟨A, B, rfl⟩ := List.append_of_mem (mem_tablesOf.mp hm)
    obtain ⟨s', u, snap, h1, h2, h3, h4, _, _, _, h5, _⟩ := C73_table_format h fmt
    have e1 : s.tables t.table.id = some t.table := (h.table t hm).table
    have e2 : s'.tables t.table.id = some u := by
      rw [← h3.1]
      exact (h2.table { t with table := u } (mem_tablesOf.mpr (by simp))).table
    refine ⟨s', d, _, by simp only [TabCall.run, h1]; rfl, h2, ?_, ⟨A, t, u, B, rfl, rfl, rfl, h3, ?_⟩, rfl, h5, ?_⟩
    · intro e0; simp [tablesOf] at e0
    · simpa [Store.tableFormat, e1, e2] using h4
    · intro c
      simpa only [flowParas_append, flowParas_table] using c
  | cellFormat id fmt =>
    obtain ⟨c, hm, rfl⟩ := hc
    obtain ⟨t, htm, hct⟩ := List.mem_flatMap.mp hm
    obtain ⟨A, B, rfl⟩ := List.append_of_mem (mem_tablesOf.mp htm)
    obtain ⟨C, D, hcd⟩ := List.append_of_mem hct
    obtain ⟨s', u, snap, h1, h2, h3, h4, _, _, _, h5, _⟩ := C73_cell_format h hcd fmt
    have e1 : s.tableCells c.cell.id = some c.cell := ((h.table t htm).cell c hct).1
    have e2 : s'.tableCells c.cell.id = some u := by
      rw [← h3.1]
      have hmt : { t with cells := C ++ { c with cell := u } :: D } ∈ tablesOf (A ++ .table { t with cells := C ++ { c with cell := u } :: D } :: B) :=
        mem_tablesOf.mpr (by simp)
      exact ((h2.table _ hmt).cell { c with cell := u } (by simp)).1
    refine ⟨s', d, _, by simp only [TabCall.run, h1]; rfl, h2, ?_, ⟨A, t, C, c, u, D, B, rfl, hcd, rfl, rfl, h3, ?_⟩, rfl, h5, ?_⟩
    · intro e0; simp [tablesOf] at e0
    · simpa [Store.cellFormat, e1, e2] using h4
    · intro k
      simpa only [flowParas_append, flowParas_table, hcd, List.flatMap_append, List.flatMap_cons] using k

/-- **C101.** Every history of calls, each made where it is meant to work, on a document with tables: every call succeeds and does
exactly what it is meant to, the document counts its characters and paragraphs right if it did before, and its lists stay. -/
theorem C101_history (env : SearchEnv) (cs : List TabCall) : ∀ {s : Store} {d : Document} {items : List SItem}, Tabled s d f items →
    tablesOf items ≠ [] → TabCall.ableAll cs items →
    ∃ s' d' items', TabCall.runAll env cs s = some s' ∧ Tabled s' d' f items' ∧ TabCall.effects cs items items' ∧
      Keeps s d items s' d' items' := by
  induction cs with
  | nil => intro s d items h ht _; exact ⟨s, d, items, rfl, h, rfl, rfl, rfl, id⟩
  | cons c cs ih =>
    intro s d items h ht ha
    obtain ⟨s1, d1, items1, h1, h2, h3, h4, h5⟩ := C101_call env h ht c ha.1
    obtain ⟨s2, d2, items2, k1, k2, k3, k4⟩ := ih h2 h3 (ha.2 items1 h4)
    refine ⟨s2, d2, items2, ?_, k2, ⟨items1, h4, k3⟩, k4.1.trans h5.1, k4.2.1.trans h5.2.1, fun hc => k4.2.2 (h5.2.2 hc)⟩
    simp only [TabCall.runAll, h1, Option.bind_some, k1]

/-- The text of the document after a history is the one the calls are meant to give, cells included. -/
theorem C101_text (env : SearchEnv) (cs : List TabCall) (h : Tabled s d f items) (ht : tablesOf items ≠ []) (ha : TabCall.ableAll cs items) :
    ∃ s' items', TabCall.runAll env cs s = some s' ∧ TabCall.effects cs items items' ∧
      s'.searchText d.id = some (docText (flowParas items')) := by
  obtain ⟨s', d', items', h1, h2, h3, h4⟩ := C101_history env cs h ht ha
  refine ⟨s', items', h1, h3, ?_⟩
  rw [← h4.1]
  exact searched_tabled h2

theorem docText_of_paras {A B : List SPara} (h : paras A = paras B) : docText A = docText B := by
  have e1 : ∀ X : List SPara, docText X = joinNl ((paras X).map Prod.snd) := by
    intro X; simp [docText, paras, Function.comp_def]
  rw [e1, e1, h]

/-- A history on "a", a table of x | y, and "b": "w" is typed into the first cell, a stretch over the cells is made bold, "u" is
typed at the start. -/
example : ∃ (s s' : Store) (d d' : Document) (f : Nat) (items items' : List SItem), Tabled s d f items ∧ tablesOf items ≠ [] ∧
    docText (flowParas items) = "a\nx\ny\nb".toList ∧
    TabCall.runAll plainSearch [.type 2 ['w'], .setFormat { fontBold := some true } 1 5, .type 0 ['u']] s = some s' ∧
    Tabled s' d' f items' ∧ docText (flowParas items') = "ua\nwx\ny\nb".toList := by
  obtain ⟨s, d, f, items, h1, h2, h3, h4, h5, h6, _⟩ := listed_tables
  have hdt : docText (flowParas items) = "a\nx\ny\nb".toList := by
    have : docText (flowParas items) = joinNl ((flowParas items).map SPara.text) := rfl
    rw [this, h6]; rfl
  have hlen : docLen (flowParas items) = 7 := by rw [← docText_length, hdt]; rfl
  obtain ⟨s', d', items', k1, k2, k3, _⟩ := C101_history plainSearch [.type 2 ['w'], .setFormat { fontBold := some true } 1 5, .type 0 ['u']] h1 h4
    ⟨by show 2 ≤ _; omega, fun _ _ => ⟨trivial, fun _ _ => ⟨Nat.zero_le _, fun _ _ => trivial⟩⟩⟩
  refine ⟨s, s', d, d', f, items, items', h1, h4, hdt, k1, k2, ?_⟩
  obtain ⟨i1, e1, i2, e2, i3, e3, rfl⟩ := k3
  have t1 : docText (flowParas i1) = "a\nwx\ny\nb".toList := by
    rw [e1.1, docText_chars, docChars_typeAt _ h1.flow_nonempty (by omega)]
    simp only [List.map_append, List.map_take, List.map_drop, ← docText_chars, hdt]
    rfl
  have t2 : docText (flowParas i2) = "a\nwx\ny\nb".toList := by
    rw [e2.1, docText_of_paras (reformatDoc_text _ _ _ _), t1]
  have n2 : flowParas i2 ≠ [] := by
    intro e0; rw [e0] at t2; cases t2
  rw [e3.1, docText_chars, docChars_typeAt _ n2 (Nat.zero_le _)]
  simp only [List.map_append, List.map_take, List.map_drop, ← docText_chars, t2]
  rfl

/-- A history on "ab" and a table of x | y | z: the "y" is deleted, then "u" is typed at the start; or the table gets a border and
then "u" is typed. -/
example : ∃ (s s' s'' : Store) (d d' d'' : Document) (items items' items'' : List SItem) (id : Nat), Tabled s d 2 items ∧ tablesOf items ≠ [] ∧
    docText (flowParas items) = "ab\nx\ny\nz".toList ∧
    TabCall.runAll plainSearch [.erase 6 5, .type 0 ['u']] s = some s' ∧ Tabled s' d' 2 items' ∧
    docText (flowParas items') = "uab\nx\n\nz".toList ∧
    TabCall.runAll plainSearch [.tableFormat id { border := some 2 }, .type 0 ['u']] s = some s'' ∧ Tabled s'' d'' 2 items'' ∧
    (tablesOf items'').map (fun t => (TableFormat.ofTable t.table).border) = [some 2] := by
  obtain ⟨s, d, t, e, h, ht, _⟩ := rowSample_tabled
  have hf : flowParas ([⟨2, [('a', none), ('b', none)], {}⟩].map SItem.para ++ [t].map SItem.table) =
      ⟨2, [('a', none), ('b', none)], {}⟩ :: (t.cells.map SCell.paras).flatten := by
    simp [flowParas, SItem.paras, List.flatMap_def]
  rw [ht] at hf
  have htab : tablesOf ([⟨2, [('a', none), ('b', none)], {}⟩].map SItem.para ++ [t].map SItem.table) = [t] := tablesOf_trailing
  have hne : tablesOf ([⟨2, [('a', none), ('b', none)], {}⟩].map SItem.para ++ [t].map SItem.table) ≠ [] := by rw [htab]; simp
  obtain ⟨s', d', items', k1, k2, k3, _⟩ := C101_history plainSearch [.erase 6 5, .type 0 ['u']] h hne
    ⟨⟨_, _, 2, ⟨4, [('y', none)], {}⟩, 0, 1, rfl, by rw [hf]; rfl, by omega, by simp, by rw [hf]; decide, by rw [hf]; decide⟩,
      fun _ _ => ⟨Nat.zero_le _, fun _ _ => trivial⟩⟩
  obtain ⟨s'', d'', items'', m1, m2, m3, _⟩ := C101_history plainSearch [.tableFormat t.table.id { border := some 2 }, .type 0 ['u']] h hne
    ⟨⟨t, by rw [htab]; simp, rfl⟩, fun _ _ => ⟨Nat.zero_le _, fun _ _ => trivial⟩⟩
  refine ⟨s, s', s'', d, d', d'', _, items', items'', t.table.id, h, hne, by rw [hf]; decide, k1, k2, ?_, m1, m2, ?_⟩
  · obtain ⟨i1, e1, i2, e2, rfl⟩ := k3
    rw [e2.1, e1.1, hf]; decide
  · obtain ⟨i1, ⟨A, v, u, B, w1, w2, w3, w4, w5⟩, i2, e2, rfl⟩ := m3
    have hv := congrArg tablesOf w1
    rw [htab, tables_at] at hv
    have hAB : tablesOf A = [] ∧ tablesOf B = [] := by
      have := congrArg List.length hv
      simp at this
      exact ⟨List.eq_nil_of_length_eq_zero (by omega), List.eq_nil_of_length_eq_zero (by omega)⟩
    have h1 : tablesOf i1 = [{ v with table := u }] := by rw [w3, tables_at, hAB.1, hAB.2]; rfl
    have h2 := congrArg tablesOf e2.2
    unfold arrangement at h2
    rw [tablesOf_on, tablesOf_on, h1] at h2
    have h3 := congrArg (List.map STable.table) h2
    simp only [List.map_map, Function.comp_def, List.map_cons, List.map_nil] at h3
    have h4 := congrArg (List.map fun x : Table => (TableFormat.ofTable x).border) h3
    rw [List.map_map] at h4
    simp only [Function.comp_def] at h4
    refine h4.trans ?_
    simp [STable.on, w5, TableFormat.over]

end Verif
