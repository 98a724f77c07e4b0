import Verif.Lemmas.ReplaceTabled
import Verif.Model.FindIn
import Verif.Props.Replace
import Verif.Props.TableLists
/-
C100: search and replace in documents with tables.
-/
namespace Verif
variable {s : Store} {d : Document} {f : Nat} {items : List SItem}
open Store

/-- The text that is searched is the text in reading order, with or without tables. -/
theorem searched_tabled (h : Tabled s d f items) : s.searchText d.id = some (docText (flowParas items)) := by
  by_cases ht : tablesOf items = []
  · exact (h.flat ht).searchText
  · exact h.searchText ht

/-- An occurrence in a paragraph is one in the text. -/
theorem occurs_para {ps : List SPara} {n o : Nat} {p : SPara} {q : List Char} (hp : ps[n]? = some p) (ho : OccursAt q o p.text) :
    OccursAt q (paraStart ps n + o) (docText ps) := by
  obtain ⟨L, R, e, hL, hst⟩ := para_split hp
  obtain ⟨x, y, h1, h2⟩ := ho
  have ed : docText (L ++ p :: R) = (headChars L).map Prod.fst ++ p.text ++ (tailChars R).map Prod.fst := by
    rw [docText_chars, docChars_mid]; simp [SPara.text]
  refine ⟨(headChars L).map Prod.fst ++ x, y ++ (tailChars R).map Prod.fst, ?_, ?_⟩
  · rw [e, ed, h1]; simp
  · rw [List.length_append, List.length_map, headChars_length, h2, hst]

/-- **C100 (finding all).** `find_all` in a document with any tables finds exactly the occurrences of the query in the text of
the document in reading order, the paragraphs of cells included, from first to last; an occurrence inside a paragraph is found
at the position of the paragraph plus its place in it. -/
theorem C100_find_all (h : Tabled s d f items) (env : SearchEnv) {q : List Char} (hq : q ≠ []) :
    ∃ is : List Nat, s.findAllIn env q true false false =
        some (is.map fun i : Nat => (i : Int), is.map fun _ : Nat => (q.length : Int), (is.length : Int)) ∧
      is.Pairwise (· < ·) ∧ (∀ i, i ∈ is ↔ OccursAt q i (docText (flowParas items))) ∧
      ∀ n p o, (flowParas items)[n]? = some p → OccursAt q o p.text → paraStart (flowParas items) n + o ∈ is := by
  refine ⟨occurrences q (docText (flowParas items)), ?_, occurrences_sorted _ _, fun i => mem_occurrences hq, ?_⟩
  · unfold Store.findAllIn
    rw [h.docIdOf, Option.bind_some, searched_tabled h, Option.bind_some, findAll]
    have : findAllMatches env (docText (flowParas items)) q true false false =
        some ((occurrences q (docText (flowParas items))).map fun o => (o, q.length)) := by
      rw [← literal_occurrences _ _ hq]; simp [findAllMatches, hq]
    rw [this, Option.map_some, List.map_map, List.map_map, List.length_map]
    rfl
  · intro n p o hp ho
    exact (mem_occurrences hq).mpr (occurs_para hp ho)

/-- **C100 (finding the next).** `find_text` in a document with any tables gives the nearest occurrence of the query at or after
the start, or before it when searching backward, in the text in reading order. -/
theorem C100_find (h : Tabled s d f items) (env : SearchEnv) {q : List Char} (hq : q ≠ []) (start : Int) :
    (∃ r, s.findTextIn env q true false false start false = some r ∧
      NearestForward (fun p l => OccursAt q p (docText (flowParas items)) ∧ l = q.length) start r) ∧
    (∃ r, s.findTextIn env q true false false start true = some r ∧
      NearestBackward (fun p l => OccursAt q p (docText (flowParas items)) ∧ l = q.length) start r) := by
  unfold Store.findTextIn
  rw [h.docIdOf, Option.bind_some, Option.bind_some, searched_tabled h, Option.bind_some, Option.bind_some]
  exact C35_literal env _ q hq start

theorem SItem.on_id (it : SItem) : SItem.on id it = it := by cases it <;> simp [SItem.on]

theorem arrangement_on {g : SPara → SPara} (hg : ∀ q : SPara, (g q).id = q.id ∧ (g q).shape = q.shape) :
    arrangement (items.map (SItem.on g)) = arrangement items := by
  have : ∀ q : SPara, ({ g q with chars := [] } : SPara) = { q with chars := [] } := by
    intro q
    obtain ⟨h1, h2⟩ := hg q
    dsimp only
    rw [h1, h2]
  unfold arrangement
  rw [List.map_map]
  apply List.map_congr_left
  intro z _
  simp only [Function.comp_apply, SItem.on_on, this]

/-- Where a paragraph starts, by its identity. -/
def startById (ps : List SPara) (i : Nat) : Nat := paraStart ps (ps.findIdx fun q => q.id == i)

theorem startById_split {L R : List SPara} {p : SPara} (hn : ((L ++ p :: R).map SPara.id).Nodup) :
    startById (L ++ p :: R) p.id = charsBefore (paras L) := by
  have : (L ++ p :: R).findIdx (fun q => q.id == p.id) = L.length := by
    have hL : ∀ x ∈ L, (x.id == p.id) = false := by
      intro x hx
      rw [List.map_append, List.map_cons, List.nodup_append] at hn
      exact beq_false_of_ne (hn.2.2 x.id (List.mem_map_of_mem hx) p.id (by simp))
    clear hn
    induction L with
    | nil => simp [List.findIdx_cons]
    | cons x L ih =>
      rw [List.cons_append, List.findIdx_cons, hL x (by simp), ih fun y hy => hL y (by simp [hy])]
      simp
  rw [startById, this, paraStart_split]

/-- **C100 (any search options).** Replacing all matches in a document with tables, when no two matches in the same paragraph
overlap: every match that lies in one paragraph, in a cell or not, is replaced, those across a paragraph end are left alone, and
nothing else changes: the tables, cells, formats and lists stay, the character count follows the text and the stored positions
are right. -/
theorem C100_replace_matches_partial (h : Tabled s d f items) (ht : tablesOf items ≠ []) (env : SearchEnv) (dto : ReplaceDto)
    {ms : List (Nat × Nat)} (hall : dto.replaceAll = true)
    (hm : findAllMatches env (docText (flowParas items)) dto.query dto.caseSensitive dto.wholeWord dto.useRegex = some ms)
    (hpos : ∀ m ∈ ms, 0 < m.2)
    (hap : ∀ n p, (flowParas items)[n]? = some p → Apart (within (paraStart (flowParas items) n) p.chars.length ms)) :
    ∃ s' r items', s.replaceText env dto = some (s', r, s.snapshot) ∧
      Tabled s' { d with characterCount := d.characterCount +
        ((charTotal (flowParas items') : Int) - charTotal (flowParas items)) } f items' ∧
      flowParas items' = rewriteDoc dto.replacement ms 0 (flowParas items) ∧ arrangement items' = arrangement items ∧
      Seated s' (flowParas items') ∧ s'.lists = s.lists ∧
      r.replaced = ((List.range (flowParas items).length).map fun n =>
        (within (paraStart (flowParas items) n) (((flowParas items)[n]?.map fun p => p.chars.length).getD 0) ms).length).sum ∧
      r.replaced + r.skipped = ms.length := by
  obtain ⟨s0, d0, F, P, hc, htr⟩ := h.replace_plain ht
  obtain ⟨s1, r, h1, h2, h3, h4, h5⟩ := C36_replace_matches_partial F P env dto hall hm hpos hap
  have hdoc : (flowParas items).map (fun p : SPara => { p with chars := rewriteAll dto.replacement (within (startById (flowParas items) p.id) p.chars.length ms) p.chars }) =
      rewriteDoc dto.replacement ms 0 (flowParas items) := by
    refine rewriteDoc_eq dto.replacement ms (fun p => within (startById (flowParas items) p.id) p.chars.length ms) 0 _ ?_
    intro L p R e
    have hn := F.ids_nodup
    rw [e] at hn ⊢
    rw [startById_split hn, Nat.zero_add]
  rw [← hdoc] at h2 h3
  obtain ⟨s', k1, k2, k3⟩ := htr env dto s1 r _ _ _ h1 h2 h3 fun _ => ⟨rfl, rfl⟩
  have hfl : flowParas (items.map (SItem.on fun p : SPara => { p with chars := rewriteAll dto.replacement (within (startById (flowParas items) p.id) p.chars.length ms) p.chars })) =
      rewriteDoc dto.replacement ms 0 (flowParas items) := by rw [flowParas_on]; exact hdoc
  refine ⟨s', r, _, k1, ?_, hfl, arrangement_on fun _ => ⟨rfl, rfl⟩, k2.seated ?_, k3.lists, h4, h5⟩
  · rw [hfl]
    have : d0.characterCount = d.characterCount := hc
    rw [← this]
    rw [hdoc] at k2
    exact k2
  · rw [tablesOf_on]; simpa using ht

/-- **C100 (literal search).** Replacing all occurrences of `q`, upper and lower case told apart, in a document with tables in
which no two occurrences in the same paragraph overlap: reading every paragraph from left to right, those of cells too, each
occurrence of `q` becomes the replacement and every other character stays, with its format; nothing else changes.  The reported
number is that of the occurrences in paragraphs; those across the end of a paragraph or cell are counted as skipped. -/
theorem C100_replace_all_partial (h : Tabled s d f items) (ht : tablesOf items ≠ []) (env : SearchEnv) (q rep : List Char)
    (hq : q ≠ []) (hap : ∀ p ∈ flowParas items, ∀ i j, OccursAt q i p.text → OccursAt q j p.text → i < j → i + q.length ≤ j) :
    ∃ s' r items', s.replaceText env ⟨q, rep, true, true, false, false⟩ = some (s', r, s.snapshot) ∧
      Tabled s' { d with characterCount := d.characterCount +
        ((charTotal (flowParas items') : Int) - charTotal (flowParas items)) } f items' ∧
      flowParas items' = (flowParas items).map (replacePara q rep) ∧ arrangement items' = arrangement items ∧
      Seated s' (flowParas items') ∧ s'.lists = s.lists ∧
      r.replaced = ((flowParas items).map fun p => (occurrences q p.text).length).sum ∧
      r.replaced + r.skipped = (occurrences q (docText (flowParas items))).length := by
  obtain ⟨s0, d0, F, P, hc, htr⟩ := h.replace_plain ht
  obtain ⟨s1, r, h1, h2, h3, h4, h5⟩ := C36_replace_all_partial F P env q rep hq hap
  obtain ⟨s', k1, k2, k3⟩ := htr env _ s1 r _ _ _ h1 h2 h3 fun _ => ⟨rfl, rfl⟩
  refine ⟨s', r, items.map (SItem.on (replacePara q rep)), k1, ?_, flowParas_on _ _, arrangement_on fun _ => ⟨rfl, rfl⟩, k2.seated ?_, k3.lists, h4, h5⟩
  · rw [flowParas_on, ← hc]
    exact k2
  · rw [tablesOf_on]; simpa using ht

/-- The first paragraph with an occurrence is the only one. -/
theorem first_unique {q : List Char} {p p' : SPara} {R R' : List SPara} {o o' : Nat} {os os' : List Nat} : ∀ {L L' : List SPara},
    (∀ x ∈ L, occurrences q x.text = []) → (∀ x ∈ L', occurrences q x.text = []) → occurrences q p.text = o :: os →
    occurrences q p'.text = o' :: os' → L ++ p :: R = L' ++ p' :: R' → L' = L ∧ p' = p ∧ R' = R := by
  intro L
  induction L with
  | nil =>
    intro L' _ hL' ho ho' ee
    cases L' with
    | nil => simp at ee; exact ⟨rfl, ee.1.symm, ee.2.symm⟩
    | cons y L' =>
      simp at ee
      have := hL' y (by simp)
      rw [← ee.1, ho] at this; cases this
  | cons x L ih =>
    intro L' hL hL' ho ho' ee
    cases L' with
    | nil =>
      simp at ee
      have := hL x (by simp)
      rw [ee.1, ho'] at this; cases this
    | cons y L' =>
      simp at ee
      obtain ⟨a1, a2, a3⟩ := ih (fun z hz => hL z (by simp [hz])) (fun z hz => hL' z (by simp [hz])) ho ho' ee.2
      exact ⟨by rw [a1, ee.1], a2, a3⟩

/-- **C100 (one replacement).** Replacing one occurrence in a document with tables: the first occurrence of `q` in reading order
that lies in a paragraph, and only it, becomes the replacement; when there is none, nothing changes. -/
theorem C100_replace_one (h : Tabled s d f items) (ht : tablesOf items ≠ []) (env : SearchEnv) (q rep : List Char)
    (hq : q ≠ []) :
    ∃ s' r, s.replaceText env ⟨q, rep, false, true, false, false⟩ = some (s', r, s.snapshot) ∧ s'.lists = s.lists ∧
      ((∀ p ∈ flowParas items, occurrences q p.text = []) → Tabled s' d f items ∧ r.replaced = 0) ∧
      (∀ L p R o os, flowParas items = L ++ p :: R → (∀ x ∈ L, occurrences q x.text = []) → occurrences q p.text = o :: os →
        ∃ items', Tabled s' { d with characterCount := d.characterCount + ((rep.length : Int) - q.length) } f items' ∧
          flowParas items' = L ++ { p with chars := rewriteAt rep o q.length p.chars } :: R ∧
          arrangement items' = arrangement items ∧ Seated s' (flowParas items') ∧ r.replaced = 1) := by
  obtain ⟨s0, d0, F, P, hc, htr⟩ := h.replace_plain ht
  obtain ⟨s1, r, h1, h2, h3⟩ := C36_replace_one_partial F P env q rep hq
  have hsplit : (∀ p ∈ flowParas items, occurrences q p.text = []) ∨
      ∃ L p R o os, flowParas items = L ++ p :: R ∧ (∀ x ∈ L, occurrences q x.text = []) ∧ occurrences q p.text = o :: os := by
    generalize flowParas items = ps
    induction ps with
    | nil => left; intro p hp; simp at hp
    | cons x ps ih =>
      cases hx : occurrences q x.text with
      | cons o os => right; exact ⟨[], x, ps, o, os, rfl, by simp, hx⟩
      | nil =>
        rcases ih with ih | ⟨L, p, R, o, os, e, hL, ho⟩
        · left
          intro p hp
          rcases List.mem_cons.mp hp with rfl | hp
          · exact hx
          · exact ih p hp
        · right
          refine ⟨x :: L, p, R, o, os, by rw [e]; rfl, ?_, ho⟩
          intro y hy
          rcases List.mem_cons.mp hy with rfl | hy
          · exact hx
          · exact hL y hy
  rcases hsplit with hnone | ⟨L, p, R, o, os, e, hL, ho⟩
  · obtain ⟨k1, k2, k3⟩ := h2 hnone
    obtain ⟨s', t1, t2, t3⟩ := htr env _ s1 r _ _ id h1 (by simpa using k1) (by simpa using k2) fun _ => ⟨rfl, rfl⟩
    refine ⟨s', r, t1, t3.lists, fun _ => ⟨?_, k3⟩, ?_⟩
    · rw [hc] at t2
      have : items.map (SItem.on id) = items := by
        conv => rhs; rw [← List.map_id items]
        exact List.map_congr_left fun z _ => SItem.on_id z
      rw [this] at t2; exact t2
    · intro L' p' R' o' os' e' _ ho'
      have := hnone p' (by rw [e']; simp)
      rw [ho'] at this; cases this
  · obtain ⟨k1, k2, k3⟩ := h3 L p R o os e hL ho
    have hn := F.ids_nodup
    have hmap : (flowParas items).map (fun z => if z.id = p.id then { z with chars := rewriteAt rep o q.length p.chars } else z) =
        L ++ { p with chars := rewriteAt rep o q.length p.chars } :: R := by
      rw [e] at hn ⊢
      rw [← map_replace hn { p with chars := rewriteAt rep o q.length p.chars }]
      apply List.map_congr_left
      intro z hz
      by_cases hzp : z.id = p.id
      · have : z = p := F.unique (by rw [e]; simp) (by rw [e]; exact hz) hzp
        rw [if_pos hzp, if_pos hzp, this]
      · rw [if_neg hzp, if_neg hzp]
    rw [← hmap] at k1 k2
    have hg : ∀ z : SPara, (if z.id = p.id then ({ z with chars := rewriteAt rep o q.length p.chars } : SPara) else z).id = z.id ∧
        (if z.id = p.id then ({ z with chars := rewriteAt rep o q.length p.chars } : SPara) else z).shape = z.shape := by
      intro z; split <;> exact ⟨rfl, rfl⟩
    obtain ⟨s', t1, t2, t3⟩ := htr env _ s1 r _ _ _ h1 k1 k2 hg
    refine ⟨s', r, t1, t3.lists, ?_, ?_⟩
    · intro hnone
      have := hnone p (by rw [e]; simp)
      rw [ho] at this; cases this
    · intro L' p' R' o' os' e' hL' ho'
      have heq := first_unique hL hL' ho ho' (e.symm.trans e')
      obtain ⟨rfl, rfl, rfl⟩ := heq
      rw [ho] at ho'
      cases ho'
      refine ⟨_, ?_, by rw [flowParas_on]; exact hmap, arrangement_on hg, t2.seated (by rw [tablesOf_on]; simpa using ht), k3⟩
      have := t2
      rw [hc] at this
      exact this

/-! ## Cases -/

/-- The theorems apply to "- a", a table of x | y, and "b": replacing x by zz changes the first cell. -/
example : ∃ (s s' : Store) (d : Document) (f : Nat) (items items' : List SItem) (r : ReplaceResult),
    Tabled s d f items ∧ tablesOf items ≠ [] ∧ (flowParas items).map SPara.text = [['a'], ['x'], ['y'], ['b']] ∧
    s.replaceText plainSearch ⟨['x'], ['z', 'z'], true, true, false, false⟩ = some (s', r, s.snapshot) ∧ r = ⟨1, 0⟩ ∧
    Tabled s' { d with characterCount := d.characterCount + 1 } f items' ∧
    (flowParas items').map SPara.text = [['a'], ['z', 'z'], ['y'], ['b']] := by
  obtain ⟨s, d, f, items, h1, h2, h3, h4, h5, h6, _⟩ := listed_tables
  obtain ⟨s', r, items', k1, k2, k3, k4, _, _, k5, k6⟩ := C100_replace_all_partial h1 h4 plainSearch ['x'] ['z', 'z'] (by simp) (by
    intro p hp i j hi hj hij
    have : ∀ t ∈ (flowParas items).map SPara.text, ∀ k, k ∈ occurrences ['x'] t → k = 0 := by rw [h6]; decide
    have a1 := this p.text (List.mem_map_of_mem hp) i ((mem_occurrences (by simp)).mpr hi)
    have a2 := this p.text (List.mem_map_of_mem hp) j ((mem_occurrences (by simp)).mpr hj)
    omega)
  have htx : ∀ p : SPara, (replacePara ['x'] ['z', 'z'] p).text = (replaceScan ['x'] ['z', 'z'] none 0 p.chars).map Prod.fst := fun _ => rfl
  have hlen : (flowParas items).length = 4 := by have := congrArg List.length h6; simpa using this
  obtain ⟨a, b, c, e, hfl⟩ : ∃ a b c e, flowParas items = [a, b, c, e] := by
    rcases hx : flowParas items with _ | ⟨a, _ | ⟨b, _ | ⟨c, _ | ⟨e, _ | ⟨z, l⟩⟩⟩⟩⟩
    all_goals rw [hx] at hlen
    all_goals simp at hlen
    exact ⟨a, b, c, e, rfl⟩
  have one : ∀ (p : SPara) (t : Char), p.text = [t] → ∃ f, p.chars = [(t, f)] := by
    intro p t hp
    unfold SPara.text at hp
    rcases hc : p.chars with _ | ⟨⟨u, f⟩, _ | ⟨v, l⟩⟩
    all_goals rw [hc] at hp
    all_goals simp at hp
    exact ⟨f, by rw [hp]⟩
  have h6' := h6
  rw [hfl] at h6'
  simp at h6'
  obtain ⟨b1, b2, b3, b4⟩ := h6'
  obtain ⟨f1, c1⟩ := one a 'a' b1
  obtain ⟨f2, c2⟩ := one b 'x' b2
  obtain ⟨f3, c3⟩ := one c 'y' b3
  obtain ⟨f4, c4⟩ := one e 'b' b4
  have hflow : (flowParas items').map SPara.text = [['a'], ['z', 'z'], ['y'], ['b']] := by
    rw [k3, hfl]
    simp [htx, c1, c2, c3, c4, replaceScan, styled, List.isPrefixOf]
  have hcount : ((charTotal (flowParas items') : Int) - charTotal (flowParas items)) = 1 := by
    have e1 : charTotal (flowParas items') = 5 := by
      have : charTotal (flowParas items') = ((flowParas items').map SPara.text).flatten.length := by
        simp [charTotal, SPara.text, List.length_flatten, Function.comp_def]
      rw [this, hflow]; rfl
    have e2 : charTotal (flowParas items) = 4 := by
      have : charTotal (flowParas items) = ((flowParas items).map SPara.text).flatten.length := by
        simp [charTotal, SPara.text, List.length_flatten, Function.comp_def]
      rw [this, h6]; rfl
    rw [e1, e2]; rfl
  rw [hcount] at k2
  refine ⟨s, s', d, f, items, items', r, h1, h4, h6, k1, ?_, k2, hflow⟩
  have ho : ((flowParas items).map fun p => (occurrences ['x'] p.text).length) = [0, 1, 0, 0] := by
    rw [hfl]; simp [b1, b2, b3, b4, occurrences, List.isPrefixOf]
  have hdt : docText (flowParas items) = ['a', '\n', 'x', '\n', 'y', '\n', 'b'] := by
    rw [hfl]; simp [docText, joinNl, b1, b2, b3, b4]
  rw [ho] at k5
  rw [hdt] at k6
  obtain ⟨u, v⟩ := r
  have k5' : u = 1 := k5
  have k6' : u + v = 1 := k6
  subst k5'
  have : v = 0 := by omega
  rw [this]

/-- What ends one cell and begins the next is found as one occurrence, with the end of the paragraph between them as a line break,
but is not replaced. -/
theorem C100_between_cells_fails : ∃ (s s1 s2 s3 : Store) (a snap r u r' u' : _),
    (Store.newStore.bind fun s => s.importPlainText "ab".toList) = some s ∧
    s.insertTable 2 2 1 2 = some (s1, a, 2, snap) ∧ s1.insertText ⟨3, 3, ['x']⟩ = some (s2, r, u) ∧
    s2.insertText ⟨5, 5, ['y']⟩ = some (s3, r', u') ∧
    s3.findAllIn plainSearch ['x', '\n', 'y'] true false false = some ([3], [3], 1) ∧
    (s3.replaceText plainSearch ⟨['x', '\n', 'y'], ['z'], true, true, false, false⟩).map (fun r => r.2.1) = some ⟨0, 1⟩ := by
  refine ⟨_, _, _, _, _, _, _, _, _, _, rfl, rfl, rfl, rfl, ?_, ?_⟩ <;> decide +kernel

end Verif
