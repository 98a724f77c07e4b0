import Verif.Spec.HtmlTables
import Verif.Lemmas.FragmentText
/- Tables of fragments as HTML. -/
namespace Verif
open Store

def TabRuns (ts : List HtmlToken) (a b : TableReader) : Prop := ts.foldlM TableReader.step a = some b
def PRuns (ts : List HtmlToken) (a b : PageReader) : Prop := ts.foldlM PageReader.step a = some b

theorem TabRuns.append {ts us : List HtmlToken} {a b c : TableReader} (h : TabRuns ts a b) (k : TabRuns us b c) : TabRuns (ts ++ us) a c := by
  unfold TabRuns at *
  rw [List.foldlM_append, h]; exact k

theorem PRuns.append {ts us : List HtmlToken} {a b c : PageReader} (h : PRuns ts a b) (k : PRuns us b c) : PRuns (ts ++ us) a c := by
  unfold PRuns at *
  rw [List.foldlM_append, h]; exact k

theorem TabRuns.cons {k : HtmlToken} {ts : List HtmlToken} {a b c : TableReader} (h : a.step k = some b) (g : TabRuns ts b c) : TabRuns (k :: ts) a c := by
  unfold TabRuns at *
  rw [List.foldlM_cons, h]; exact g

theorem PRuns.cons {k : HtmlToken} {ts : List HtmlToken} {a b c : PageReader} (h : a.step k = some b) (g : PRuns ts b c) : PRuns (k :: ts) a c := by
  unfold PRuns at *
  rw [List.foldlM_cons, h]; exact g

/-- What the reader of paragraphs reads, the reader of a cell reads. -/
theorem Runs.cell {rows : List (List HtmlCell)} {row : Option (List HtmlCell)} {e : HtmlElem} (ts : List HtmlToken) : ∀ {r r' : HtmlReader},
    Runs ts r r' → TabRuns ts ⟨rows, row, some (e, r)⟩ ⟨rows, row, some (e, r')⟩ := by
  induction ts with
  | nil => intro r r' h; unfold Runs at h; cases h; rfl
  | cons k ts ih =>
    intro r r' h
    unfold Runs at h
    rw [List.foldlM_cons] at h
    cases hs : r.step k with
    | none => rw [hs] at h; cases h
    | some r1 =>
      rw [hs] at h
      refine TabRuns.cons ?_ (ih (r := r1) h)
      unfold TableReader.step
      dsimp only
      have h1 : ¬ (k = .tag "/td".toList ∧ r.open_ = []) := by
        rintro ⟨rfl, ho⟩
        unfold HtmlReader.step HtmlReader.closeElem at hs
        rw [ho] at hs
        simp at hs
      have h2 : ¬ (k = .tag "br".toList ∨ k = .tag "br/".toList) := by
        have key : ∀ e : HtmlElem, e.name = "br".toList ∨ e.name = "br/".toList → r.openElem e ≠ some r1 := by
          intro e he hs
          have f1 : e.name ≠ "meta".toList := by rcases he with he | he <;> rw [he] <;> decide
          have f2 : paraKind e r.open_ = none := by unfold paraKind; rcases he with he | he <;> rw [he] <;> rfl
          have f3 : e.name ∉ htmlOuter := by rcases he with he | he <;> rw [he] <;> decide
          have f4 : e.name ∉ htmlInner := by rcases he with he | he <;> rw [he] <;> decide
          have f5 : e.name ≠ "code".toList := by rcases he with he | he <;> rw [he] <;> decide
          unfold HtmlReader.openElem at hs
          rw [if_neg f1, f2] at hs
          cases hp : r.inPara with
          | false => rw [hp] at hs; dsimp only at hs; rw [if_neg f3] at hs; cases hs
          | true =>
            rw [hp] at hs
            dsimp only at hs
            split at hs
            · rw [if_neg (fun h => absurd h.1 f5), if_neg f4] at hs; cases hs
            · cases hs
        rintro (rfl | rfl)
        · exact key (elemOf "br".toList) (.inl rfl) hs
        · exact key (elemOf "br/".toList) (.inr rfl) hs
      rw [if_neg h1, if_neg h2, hs]; rfl

/-- What the reader of a table reads, the reader of a page reads. -/
theorem TabRuns.page {base : HtmlReader} {tabs : List (Nat × List (List HtmlCell))} (ts : List HtmlToken) : ∀ {a b : TableReader},
    TabRuns ts a b → PRuns ts ⟨base, some a, tabs⟩ ⟨base, some b, tabs⟩ := by
  induction ts with
  | nil => intro a b h; unfold TabRuns at h; cases h; rfl
  | cons k ts ih =>
    intro a b h
    unfold TabRuns at h
    rw [List.foldlM_cons] at h
    cases hs : a.step k with
    | none => rw [hs] at h; cases h
    | some a1 =>
      rw [hs] at h
      refine PRuns.cons ?_ (ih (a := a1) h)
      unfold PageReader.step
      dsimp only
      rw [if_neg, hs]
      · rfl
      · rintro ⟨rfl, h1, h2⟩
        rw [Option.isNone_iff_eq_none] at h2
        unfold TableReader.step at hs
        rw [h1, h2] at hs
        simp only at hs
        rw [if_neg (by decide)] at hs; cases hs

/-- What the reader of paragraphs reads, the reader of a page reads. -/
theorem Runs.page {tabs : List (Nat × List (List HtmlCell))} (ts : List HtmlToken) : ∀ {r r' : HtmlReader},
    Runs ts r r' → PRuns ts ⟨r, none, tabs⟩ ⟨r', none, tabs⟩ := by
  induction ts with
  | nil => intro a b h; unfold Runs at h; cases h; rfl
  | cons k ts ih =>
    intro r r' h
    unfold Runs at h
    rw [List.foldlM_cons] at h
    cases hs : r.step k with
    | none => rw [hs] at h; cases h
    | some r1 =>
      rw [hs] at h
      refine PRuns.cons ?_ (ih (r := r1) h)
      unfold PageReader.step
      dsimp only
      rw [if_neg, hs]
      · rfl
      · rintro ⟨h0, h1⟩
        cases k with
        | char c => cases h0
        | tag body =>
          have hn : (elemOf body).name = "table".toList := by simpa [HtmlToken.opensTable] using h0
          have hb : ¬ body.head? = some '/' := by
            intro hb
            cases body with
            | nil => cases hb
            | cons c body =>
              have : c = '/' := by simpa using hb
              subst this
              unfold elemOf at hn
              rw [List.takeWhile_cons_of_pos (by decide)] at hn
              cases hn
          unfold HtmlReader.step at hs
          dsimp only at hs
          rw [if_neg hb] at hs
          unfold HtmlReader.openElem at hs
          have hk : paraKind (elemOf body) r.open_ = none := by unfold paraKind; rw [hn]; rfl
          rw [if_neg (by rw [hn]; decide), h1, hk] at hs
          dsimp only at hs
          rw [if_neg (by rw [hn]; decide)] at hs; cases hs

theorem Tok.tagAttr2 (p1 v1 p2 v2 : List Char) (h1 : ∀ c ∈ p1, c ≠ '"' ∧ c ≠ '>') (hv1 : '"' ∉ v1)
    (h2 : ∀ c ∈ p2, c ≠ '"' ∧ c ≠ '>') (hv2 : '"' ∉ v2) :
    Tok ('<' :: p1 ++ '"' :: v1 ++ '"' :: p2 ++ '"' :: v2 ++ ['"', '>']) [.tag (p1 ++ '"' :: v1 ++ '"' :: p2 ++ '"' :: v2 ++ ['"'])] := by
  intro rest
  simp only [List.cons_append, List.append_assoc, htmlTokens, if_true]
  rw [tag_plain p1 h1]
  simp only [htmlTokens, if_true, Bool.not_false]
  rw [tag_quoted v1 hv1]
  simp only [htmlTokens, if_true, Bool.not_true]
  rw [tag_plain p2 h2]
  simp only [htmlTokens, if_true, Bool.not_false]
  rw [tag_quoted v2 hv2]
  simp [htmlTokens]

theorem nat_noQuote (n : Nat) : '"' ∉ (toString n).toList := fun h => absurd (nat_safe n '"' h) (by simp)

/-- The tag of a cell. -/
theorem cellTag (c : FragCell) : ∃ body,
    Tok ("<td".toList ++ (if c.rowSpan > 1 then " rowspan=\"".toList ++ (toString c.rowSpan).toList ++ ['"'] else []) ++
      (if c.columnSpan > 1 then " colspan=\"".toList ++ (toString c.columnSpan).toList ++ ['"'] else []) ++ ['>']) [.tag body] ∧
    (elemOf body).name = "td".toList ∧ body.head? ≠ some '/' ∧ spanAttr "rowspan" (elemOf body) = spanText c.rowSpan ∧
    spanAttr "colspan" (elemOf body) = spanText c.columnSpan ∧ body ≠ "/tr".toList := by
  have hr := nat_noQuote c.rowSpan
  have hk := nat_noQuote c.columnSpan
  have key : ∀ x : List Char, elemOf ("td".toList ++ ' ' :: x) = ⟨"td".toList, ' ' :: x⟩ := by
    intro x; simp [elemOf]
  unfold spanText
  generalize htr : (toString c.rowSpan).toList = tr at *
  generalize htk : (toString c.columnSpan).toList = tk at *
  by_cases h1 : c.rowSpan > 1 <;> by_cases h2 : c.columnSpan > 1
  · rw [if_pos h1, if_pos h2, if_pos h1, if_pos h2]
    have hb := Tok.tagAttr2 "td rowspan=".toList tr " colspan=".toList tk (by decide) hr (by decide) hk
    have e : elemOf ("td rowspan=".toList ++ '"' :: tr ++ '"' :: " colspan=".toList ++ '"' :: tk ++ ['"']) =
        ⟨"td".toList, " rowspan=".toList ++ '"' :: (tr ++ '"' :: (" colspan=".toList ++ '"' :: (tk ++ '"' :: [])))⟩ := by
      have := key ("rowspan=".toList ++ '"' :: tr ++ '"' :: " colspan=".toList ++ '"' :: tk ++ ['"'])
      simpa using this
    refine ⟨_, ?_, by rw [e], by simp, ?_, ?_, by simp⟩
    · simpa using hb
    · rw [e]; unfold spanAttr; dsimp only
      rw [splitOnChar_append (by decide), splitOnChar_append hr, splitOnChar_append (by decide), splitOnChar_append hk]
      simp [attrPairs, List.lookup]
    · rw [e]; unfold spanAttr; dsimp only
      rw [splitOnChar_append (by decide), splitOnChar_append hr, splitOnChar_append (by decide), splitOnChar_append hk]
      simp [attrPairs, List.lookup]
  · rw [if_pos h1, if_neg h2, if_pos h1, if_neg h2]
    have hb := Tok.tagAttr "td rowspan=".toList tr (by decide) hr
    have e : elemOf ("td rowspan=".toList ++ '"' :: tr ++ ['"']) = ⟨"td".toList, " rowspan=".toList ++ '"' :: (tr ++ '"' :: [])⟩ := by
      have := key ("rowspan=".toList ++ '"' :: tr ++ ['"'])
      simpa using this
    refine ⟨_, ?_, by rw [e], by simp, ?_, ?_, by simp⟩
    · simpa using hb
    · rw [e]; unfold spanAttr; dsimp only
      rw [splitOnChar_append (by decide), splitOnChar_append hr]
      simp [attrPairs, List.lookup, splitOnChar]
    · rw [e]; unfold spanAttr; dsimp only
      rw [splitOnChar_append (by decide), splitOnChar_append hr]
      simp [attrPairs, List.lookup, splitOnChar]
  · rw [if_neg h1, if_pos h2, if_neg h1, if_pos h2]
    have hb := Tok.tagAttr "td colspan=".toList tk (by decide) hk
    have e : elemOf ("td colspan=".toList ++ '"' :: tk ++ ['"']) = ⟨"td".toList, " colspan=".toList ++ '"' :: (tk ++ '"' :: [])⟩ := by
      have := key ("colspan=".toList ++ '"' :: tk ++ ['"'])
      simpa using this
    refine ⟨_, ?_, by rw [e], by simp, ?_, ?_, by simp⟩
    · simpa using hb
    · rw [e]; unfold spanAttr; dsimp only
      rw [splitOnChar_append (by decide), splitOnChar_append hk]
      simp [attrPairs, List.lookup, splitOnChar]
    · rw [e]; unfold spanAttr; dsimp only
      rw [splitOnChar_append (by decide), splitOnChar_append hk]
      simp [attrPairs, List.lookup, splitOnChar]
  · rw [if_neg h1, if_neg h2, if_neg h1, if_neg h2]
    exact ⟨"td".toList, by simpa using Tok.tag "td".toList (by decide), rfl, by decide, rfl, rfl, by decide⟩

/-- The lines of a cell as paragraphs of the reader, without kind and style. -/
def cellLines (fbs : List FragBlock) : List HtmlPara := fbs.map fun fb => ⟨.para, [], fb.chars.map fun x => (x.1, fragMarksOf (x.2.getD {}))⟩

theorem cellLinesHtml (rows : List (List HtmlCell)) (row : Option (List HtmlCell)) (e : HtmlElem) (fbs : List FragBlock) (h : ∀ fb ∈ fbs, fb.IsText) :
    ∃ ts, Tok (joinWith "<br>".toList (fbs.map fragInline)) ts ∧ ∀ ps, TabRuns ts ⟨rows, row, some (e, ⟨[], true, ⟨.para, [], []⟩ :: ps⟩)⟩
      ⟨rows, row, some (e, ⟨[], true, (if fbs = [] then [⟨.para, [], []⟩] else cellLines fbs).reverse ++ ps⟩)⟩ := by
  induction fbs with
  | nil => exact ⟨[], Tok.nil, fun ps => rfl⟩
  | cons fb fbs ih =>
    obtain ⟨ts, t1, t2⟩ := (h fb (by simp)).inl (es := []) (by intro e he; simp at he)
    cases fbs with
    | nil =>
      refine ⟨ts, by simpa [joinWith] using t1, fun ps => ?_⟩
      have := Runs.cell (rows := rows) (row := row) (e := e) ts (t2 ⟨.para, [], []⟩ ps)
      simpa [cellLines] using this
    | cons fb' fbs =>
      obtain ⟨us, u1, u2⟩ := ih fun x hx => h x (by simp [hx])
      have hbr : Tok "<br>".toList [.tag "br".toList] := Tok.tag "br".toList (by decide)
      refine ⟨ts ++ ([.tag "br".toList] ++ us), ?_, fun ps => ?_⟩
      · have := t1.append (hbr.append u1)
        have e : joinWith "<br>".toList ((fb :: fb' :: fbs).map fragInline) =
            fragInline fb ++ ("<br>".toList ++ joinWith "<br>".toList ((fb' :: fbs).map fragInline)) := by
          simp [joinWith]
        rw [e]; exact this
      · have r1 := Runs.cell (rows := rows) (row := row) (e := e) ts (t2 ⟨.para, [], []⟩ ps)
        have r2 := u2 ({ (⟨.para, [], []⟩ : HtmlPara) with chars := [] ++ fb.chars.map fun x => (x.1, fragMarksOf (x.2.getD {})) } :: ps)
        generalize hq : ({ (⟨.para, [], []⟩ : HtmlPara) with chars := [] ++ fb.chars.map fun x => (x.1, fragMarksOf (x.2.getD {})) } : HtmlPara) = q at r2
        have e1 : TabRuns [.tag "br".toList] ⟨rows, row, some (e, ⟨[], true, q :: ps⟩)⟩ ⟨rows, row, some (e, ⟨[], true, ⟨.para, [], []⟩ :: q :: ps⟩)⟩ := by
          refine TabRuns.cons (b := ⟨rows, row, some (e, ⟨[], true, ⟨.para, [], []⟩ :: q :: ps⟩)⟩) ?_ rfl
          unfold TableReader.step
          dsimp only
          rw [if_neg (by decide), if_pos (.inl rfl)]
        have r3 := e1.append r2
        rw [← hq] at r3
        have r4 := r1.append r3
        rw [if_neg (by simp)] at r4 ⊢
        simpa [cellLines] using r4

theorem cellHtml (c : FragCell) (h : ∀ fb ∈ c.blocks, fb.IsText) : ∃ ts, Tok (fragCellHtml c) ts ∧
    ∀ rows cells, TabRuns ts ⟨rows, some cells, none⟩ ⟨rows, some (fragCellOf c :: cells), none⟩ := by
  obtain ⟨body, b1, b2, b3, b4, b5, b6⟩ := cellTag c
  have hend : Tok "</td>".toList [.tag "/td".toList] := Tok.tag "/td".toList (by decide)
  obtain ⟨ts, t1, _⟩ := cellLinesHtml [] none (elemOf body) c.blocks h
  refine ⟨[.tag body] ++ (ts ++ [.tag "/td".toList]), ?_, fun rows cells => ?_⟩
  · have := b1.append (t1.append hend)
    unfold fragCellHtml
    simpa using this
  · obtain ⟨ts', t1', t2'⟩ := cellLinesHtml rows (some cells) (elemOf body) c.blocks h
    have : ts' = ts := by
      have := t1.read; rw [t1'.read] at this; exact Option.some.inj this
    subst this
    refine TabRuns.append (TabRuns.cons (b := ⟨rows, some cells, some (elemOf body, ⟨[], true, [⟨.para, [], []⟩]⟩)⟩) ?_ rfl)
      ((t2' []).append (TabRuns.cons (b := ⟨rows, some (fragCellOf c :: cells), none⟩) ?_ rfl))
    · unfold TableReader.step
      dsimp only
      rw [if_neg b6, if_pos b2]
    · unfold TableReader.step
      dsimp only
      rw [if_pos ⟨rfl, rfl⟩, b4, b5]
      simp only [Option.map_some]
      unfold fragCellOf
      by_cases hb : c.blocks = []
      · simp [hb]
      · simp [hb, cellLines]

def cellOrNone : Option FragCell → List Char
  | some x => fragCellHtml x
  | none => []

theorem cellsHtml (cs : List (Option FragCell)) (h : ∀ c ∈ cs, ∀ x, c = some x → ∀ fb ∈ x.blocks, fb.IsText) :
    ∃ ts, Tok (cs.flatMap cellOrNone) ts ∧
    ∀ rows cells, TabRuns ts ⟨rows, some cells, none⟩ ⟨rows, some ((cs.flatMap fun c => (c.map fragCellOf).toList).reverse ++ cells), none⟩ := by
  induction cs with
  | nil => exact ⟨[], Tok.nil, fun _ _ => rfl⟩
  | cons c cs ih =>
    obtain ⟨us, u1, u2⟩ := ih fun y hy => h y (by simp [hy])
    cases c with
    | none => exact ⟨us, by simpa [cellOrNone] using u1, fun rows cells => by simpa using u2 rows cells⟩
    | some c =>
      obtain ⟨ts, t1, t2⟩ := cellHtml c (h (some c) (by simp) c rfl)
      refine ⟨ts ++ us, by simpa [cellOrNone] using t1.append u1, fun rows cells => ?_⟩
      have := (t2 rows cells).append (u2 rows (fragCellOf c :: cells))
      simpa using this

theorem rowsHtml (css : List (List (Option FragCell))) (h : ∀ cs ∈ css, ∀ c ∈ cs, ∀ x, c = some x → ∀ fb ∈ x.blocks, fb.IsText) :
    ∃ ts, Tok (css.flatMap fun cs => htmlElem "tr".toList (cs.flatMap cellOrNone)) ts ∧
    ∀ rows, TabRuns ts ⟨rows, none, none⟩ ⟨(css.map fun cs => cs.flatMap fun c => (c.map fragCellOf).toList).reverse ++ rows, none, none⟩ := by
  induction css with
  | nil => exact ⟨[], Tok.nil, fun _ => rfl⟩
  | cons cs css ih =>
    obtain ⟨us, u1, u2⟩ := ih fun y hy => h y (by simp [hy])
    obtain ⟨ts, t1, t2⟩ := cellsHtml cs (h cs (by simp))
    have k1 : Tok ('<' :: "tr".toList ++ ['>']) [.tag "tr".toList] := Tok.tag _ (by decide)
    have k2 : Tok ('<' :: "/tr".toList ++ ['>']) [.tag "/tr".toList] := Tok.tag _ (by decide)
    refine ⟨[.tag "tr".toList] ++ (ts ++ ([.tag "/tr".toList] ++ us)), ?_, fun rows => ?_⟩
    · have := k1.append (t1.append (k2.append u1))
      rw [List.flatMap_cons]
      simpa [htmlElem] using this
    · have e1 : TabRuns [.tag "tr".toList] ⟨rows, none, none⟩ ⟨rows, some [], none⟩ := rfl
      have e2 := t2 rows []
      rw [List.map_cons]
      generalize (cs.flatMap fun c => (c.map fragCellOf).toList) = X at *
      have e3 : TabRuns [.tag "/tr".toList] ⟨rows, some (X.reverse ++ []), none⟩ ⟨(X.reverse ++ []).reverse :: rows, none, none⟩ := rfl
      have := e1.append (e2.append (e3.append (u2 _)))
      simpa using this

theorem tableHtml (t : FragTable) (h : ∀ c ∈ t.cells, ∀ fb ∈ c.blocks, fb.IsText) : ∃ ts, Tok (fragTableHtml t) ts ∧
    ∀ r tabs, r.inPara = false → PRuns ts ⟨r, none, tabs⟩ ⟨r, none, (r.paras.length, fragTableOf t) :: tabs⟩ := by
  obtain ⟨ts, t1, t2⟩ := rowsHtml ((List.range t.rows).map fun r => (List.range t.columns).map fun c =>
      t.cells.find? fun x => x.row = r ∧ x.column = c) (by
    intro cs hcs c hc x hx
    obtain ⟨r, _, rfl⟩ := List.mem_map.mp hcs
    obtain ⟨k, _, rfl⟩ := List.mem_map.mp hc
    exact h x (List.mem_of_find?_eq_some hx))
  have k1 : Tok ('<' :: "table".toList ++ ['>']) [.tag "table".toList] := Tok.tag _ (by decide)
  have k2 : Tok ('<' :: "/table".toList ++ ['>']) [.tag "/table".toList] := Tok.tag _ (by decide)
  refine ⟨[.tag "table".toList] ++ (ts ++ [.tag "/table".toList]), ?_, fun r tabs hr => ?_⟩
  · have := k1.append (t1.append k2)
    have e : fragTableHtml t = htmlElem "table".toList (((List.range t.rows).map fun r => (List.range t.columns).map fun c =>
        t.cells.find? fun x => x.row = r ∧ x.column = c).flatMap fun cs => htmlElem "tr".toList (cs.flatMap cellOrNone)) := by
      unfold fragTableHtml
      simp only [List.flatMap_map]
      congr 2
    rw [e]
    simpa [htmlElem] using this
  · have e1 : PRuns [.tag "table".toList] ⟨r, none, tabs⟩ ⟨r, some {}, tabs⟩ := by
      refine PRuns.cons (b := ⟨r, some {}, tabs⟩) ?_ rfl
      unfold PageReader.step
      dsimp only
      rw [if_pos ⟨rfl, hr⟩]
    have e2 := TabRuns.page (base := r) (tabs := tabs) ts (t2 [])
    refine e1.append (e2.append (PRuns.cons (b := ⟨r, none, (r.paras.length, fragTableOf t) :: tabs⟩) ?_ rfl))
    unfold PageReader.step
    dsimp only
    rw [if_pos ⟨rfl, rfl, rfl⟩]
    simp [fragTableOf, List.map_map, Function.comp_def, List.flatMap_map]

/-- A piece of a page that gives these paragraphs and these tables, each with the number of paragraphs of the piece in front of it. -/
def Pg (x : List Char) (outer : List HtmlElem) (hps : List HtmlPara) (tabs : List (Nat × List (List HtmlCell))) : Prop :=
  ∃ ts, Tok x ts ∧ ∀ ps0 tabs0, PRuns ts ⟨⟨outer, false, ps0⟩, none, tabs0⟩
    ⟨⟨outer, false, hps.reverse ++ ps0⟩, none, (tabs.map fun t => (t.1 + ps0.length, t.2)).reverse ++ tabs0⟩

theorem Pg.nil (outer : List HtmlElem) : Pg [] outer [] [] := ⟨[], Tok.nil, fun _ _ => rfl⟩

theorem Pg.append {x y : List Char} {outer : List HtmlElem} {hps hqs : List HtmlPara} {tabs tabs' : List (Nat × List (List HtmlCell))}
    (h : Pg x outer hps tabs) (k : Pg y outer hqs tabs') : Pg (x ++ y) outer (hps ++ hqs) (tabs ++ tabs'.map fun t => (t.1 + hps.length, t.2)) := by
  obtain ⟨ts, t1, t2⟩ := h
  obtain ⟨us, u1, u2⟩ := k
  refine ⟨ts ++ us, t1.append u1, fun ps0 tabs0 => ?_⟩
  have := (t2 ps0 tabs0).append (u2 _ _)
  simpa [List.map_map, Function.comp_def, Nat.add_assoc, Nat.add_comm, Nat.add_left_comm] using this

theorem Par.pg {x : List Char} {outer : List HtmlElem} {hps : List HtmlPara} (h : Par x outer hps) : Pg x outer hps [] := by
  obtain ⟨ts, t1, t2⟩ := h
  exact ⟨ts, t1, fun ps0 tabs0 => Runs.page ts (t2 ps0)⟩

theorem tablesPg (outer : List HtmlElem) (ts : List FragTable) (h : ∀ t ∈ ts, ∀ c ∈ t.cells, ∀ fb ∈ c.blocks, fb.IsText) :
    Pg (ts.flatMap fragTableHtml) outer [] (ts.map fun t => (0, fragTableOf t)) := by
  induction ts with
  | nil => exact Pg.nil _
  | cons t ts ih =>
    obtain ⟨us, u1, u2⟩ := tableHtml t (h t (by simp))
    have k : Pg (fragTableHtml t) outer [] [(0, fragTableOf t)] := ⟨us, u1, fun ps0 tabs0 => by simpa using u2 ⟨outer, false, ps0⟩ tabs0 rfl⟩
    have := k.append (ih fun x hx => h x (by simp [hx]))
    simpa [Function.comp_def] using this

theorem bodyPg {outer : List HtmlElem} (ho : Clean outer) (fuel i : Nat) (fbs : List FragBlock) (ts : List FragTable) (hf : fbs.length ≤ fuel)
    (h : ∀ fb ∈ fbs, fb.IsText) (ht : ∀ t ∈ ts, ∀ c ∈ t.cells, ∀ fb ∈ c.blocks, fb.IsText)
    (hs : ts.Pairwise fun a b => a.index ≤ b.index) : ∃ tabs, Pg (fragBody fuel i fbs ts) outer (fbs.map fragPageOf) tabs ∧
      tabs.map Prod.snd = ts.map fragTableOf ∧
      ((∀ fb ∈ fbs, fb.list = none) → tabs.map Prod.fst = ts.map fun t => min (t.index - i) fbs.length) := by
  induction fuel generalizing i fbs ts with
  | zero =>
    have : fbs = [] := List.length_eq_zero_iff.mp (by omega)
    subst this
    exact ⟨_, tablesPg outer ts ht, by simp [Function.comp_def], fun _ => by simp [Function.comp_def]⟩
  | succ fuel ih =>
    cases fbs with
    | nil => exact ⟨_, tablesPg outer ts ht, by simp [Function.comp_def], fun _ => by simp [Function.comp_def]⟩
    | cons fb fbs =>
      simp only [List.length_cons] at hf
      unfold Store.fragBody
      have hsplit := List.takeWhile_append_dropWhile (p := fun t : FragTable => decide (t.index ≤ i)) (l := ts)
      have hnow : ∀ t ∈ ts.takeWhile fun t => decide (t.index ≤ i), t.index ≤ i := fun t ht => by
        simpa using List.all_eq_true.mp List.all_takeWhile t ht
      have hlater : ∀ t ∈ ts.dropWhile fun t => decide (t.index ≤ i), i < t.index := by
        intro t ht'
        cases hd : ts.dropWhile fun t => decide (t.index ≤ i) with
        | nil => rw [hd] at ht'; cases ht'
        | cons u us =>
          have hu : ¬ u.index ≤ i := by
            have := List.head?_dropWhile_not (fun t : FragTable => decide (t.index ≤ i)) ts
            rw [hd] at this
            simpa using this
          have hp : (u :: us).Pairwise fun a b : FragTable => a.index ≤ b.index := by
            rw [← hd]; exact hs.sublist (List.dropWhile_sublist _)
          rw [hd] at ht'
          rcases List.mem_cons.mp ht' with rfl | hm
          · omega
          · have := (List.pairwise_cons.mp hp).1 t hm; omega
      have hnows : ∀ t ∈ ts.takeWhile fun t => decide (t.index ≤ i), t ∈ ts := fun t h => (List.takeWhile_sublist _).subset h
      have hlaters : ∀ t ∈ ts.dropWhile fun t => decide (t.index ≤ i), t ∈ ts := fun t h => (List.dropWhile_sublist _).subset h
      have hps : (ts.dropWhile fun t => decide (t.index ≤ i)).Pairwise fun a b : FragTable => a.index ≤ b.index := hs.sublist (List.dropWhile_sublist _)
      dsimp only
      generalize (ts.takeWhile fun t => decide (t.index ≤ i)) = now at *
      generalize (ts.dropWhile fun t => decide (t.index ≤ i)) = later at *
      subst hsplit
      have k1 := tablesPg outer now fun t h => ht t (by simp [h])
      cases hl : fb.list with
      | none =>
        obtain ⟨tabs, p1, p2, p3⟩ := ih (i + 1) fbs later (by omega) (fun x hx => h x (by simp [hx])) (fun t h => ht t (by simp [h])) hps
        have := k1.append ((Par.fragPara (h fb (by simp)) hl ho).pg.append p1)
        refine ⟨_, this, ?_, fun hno => ?_⟩
        · simp [Function.comp_def] at p2 ⊢
          exact p2
        · have p3 := p3 fun x hx => hno x (by simp [hx])
          have e : tabs.map (fun t => t.1 + 1) = later.map fun t => min (t.index - i) (fbs.length + 1) := by
            have := congrArg (List.map (· + 1)) p3
            rw [List.map_map, List.map_map] at this
            rw [show tabs.map (fun t => t.1 + 1) = tabs.map ((· + 1) ∘ Prod.fst) from rfl, this]
            apply List.map_congr_left
            intro t hm
            have := hlater t hm
            simp only [Function.comp]
            omega
          have e0 : now.map (fun _ => 0) = now.map fun t : FragTable => min (t.index - i) (fbs.length + 1) := by
            apply List.map_congr_left
            intro t hm
            have := hnow t hm
            omega
          simp only [List.map_append, List.map_map, Function.comp_def, List.length_cons, List.length_nil, Nat.add_zero, List.map_nil,
            List.nil_append, Nat.zero_add]
          rw [e, e0]
      | some l =>
        dsimp only
        obtain ⟨mine, e1, e2, e3⟩ := Par.fragItems (isOrdered l.style) ho (fb :: fbs) h
        have hne := e3 fb l rfl hl (numbered_eq _).symm
        have hlen := congrArg List.length e1
        simp only [List.length_cons, List.length_append] at hlen
        have hpos : 0 < mine.length := List.length_pos_iff.mpr hne
        have htag : (if isOrdered l.style then "ol".toList else "ul".toList) =
            (if isOrdered l.style then "ol" else "ul").toList := by split <;> rfl
        rw [htag]
        obtain ⟨tabs, p1, p2, p3⟩ := ih (i + ((fb :: fbs).length - (Store.fragItems (isOrdered l.style) (fb :: fbs)).2.length))
          (Store.fragItems (isOrdered l.style) (fb :: fbs)).2 later (by omega)
          (fun x hx => h x (by rw [e1]; simp [hx])) (fun t h => ht t (by simp [h])) hps
        have := k1.append ((Par.outer (tag := (if isOrdered l.style then "ol" else "ul").toList) (by
          cases isOrdered l.style <;> decide) e2).pg.append p1)
        rw [List.nil_append, ← List.map_append, ← e1] at this
        refine ⟨_, this, ?_, fun hno => ?_⟩
        · simp [Function.comp_def] at p2 ⊢
          exact p2
        · rw [hno fb (by simp)] at hl; cases hl

/-- The page around paragraphs and tables. -/
theorem readPage_page {x : List Char} {hps : List HtmlPara} {tabs : List (Nat × List (List HtmlCell))}
    (h : Pg x [⟨"body".toList, []⟩, ⟨"html".toList, []⟩] hps tabs) :
    readPage ("<html><head><meta charset=\"utf-8\"></head><body>".toList ++ x ++ "</body></html>".toList) = some (hps, tabs) := by
  obtain ⟨ts, t2, t3⟩ := h
  have k1 : Tok ('<' :: "html".toList ++ ['>']) [.tag "html".toList] := Tok.tag _ (by decide)
  have k2 : Tok ('<' :: "head".toList ++ ['>']) [.tag "head".toList] := Tok.tag _ (by decide)
  have k3 := Tok.tagAttr "meta charset=".toList "utf-8".toList (by decide) (by decide)
  have k4 : Tok ('<' :: "/head".toList ++ ['>']) [.tag "/head".toList] := Tok.tag _ (by decide)
  have k5 : Tok ('<' :: "body".toList ++ ['>']) [.tag "body".toList] := Tok.tag _ (by decide)
  have k6 : Tok ('<' :: "/body".toList ++ ['>']) [.tag "/body".toList] := Tok.tag _ (by decide)
  have k7 : Tok ('<' :: "/html".toList ++ ['>']) [.tag "/html".toList] := Tok.tag _ (by decide)
  have hall := ((((k1.append k2).append (k3.append k4)).append k5).append t2).append (k6.append k7)
  have hx : "<html><head><meta charset=\"utf-8\"></head><body>".toList ++ x ++ "</body></html>".toList =
      '<' :: "html".toList ++ ['>'] ++ ('<' :: "head".toList ++ ['>']) ++
      ('<' :: "meta charset=".toList ++ '"' :: "utf-8".toList ++ ['"', '>'] ++ ('<' :: "/head".toList ++ ['>'])) ++
      ('<' :: "body".toList ++ ['>']) ++ x ++ ('<' :: "/body".toList ++ ['>'] ++ ('<' :: "/html".toList ++ ['>'])) := by
    simp
  unfold readPage
  rw [hx, hall.read, Option.bind_some]
  have r1 : PRuns ([.tag "html".toList] ++ [.tag "head".toList] ++
      ([.tag ("meta charset=".toList ++ '"' :: "utf-8".toList ++ ['"'])] ++ [.tag "/head".toList]) ++
      [.tag "body".toList]) ⟨⟨[], false, []⟩, none, []⟩ ⟨⟨[⟨"body".toList, []⟩, ⟨"html".toList, []⟩], false, []⟩, none, []⟩ := by
    unfold PRuns; rfl
  have r2 := r1.append (t3 [] [])
  generalize hq : hps.reverse ++ [] = q at r2
  generalize hw : (tabs.map fun t => (t.1 + ([] : List HtmlPara).length, t.2)).reverse ++ [] = w at r2
  have r3 : PRuns ([.tag "/body".toList] ++ [.tag "/html".toList])
      ⟨⟨[⟨"body".toList, []⟩, ⟨"html".toList, []⟩], false, q⟩, none, w⟩ ⟨⟨[], false, q⟩, none, w⟩ := by
    unfold PRuns; rfl
  have r4 := r2.append r3
  unfold PRuns at r4
  rw [r4]
  subst hq hw
  simp

end Verif
