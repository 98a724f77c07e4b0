import Verif.Lemmas.MarkdownText
import Verif.Lemmas.ExportHtml
/- The Markdown reader on a line the exporter writes. -/
namespace Verif

/-- White space, punctuation or the end of the line. -/
def OuterOk (o : Option Char) : Prop := ∀ b, o = some b → isWhite b = true ∨ b ∈ mdPunct

theorem mdOpens_iff {o : Option Char} {c : Char} : mdOpens o (some c) = true ↔ isWhite c = false ∧ (c.isAlphanum = true ∨ OuterOk o) := by
  unfold mdOpens OuterOk
  cases o with
  | none => simp
  | some b => simp

/-- The first character is no white space. -/
def HeadOk (x : List Char) : Prop := ∃ c, x.head? = some c ∧ isWhite c = false

theorem HeadOk.opens {x : List Char} {o : Option Char} (h : HeadOk x) (ho : OuterOk o) : mdOpens o x.head? = true := by
  obtain ⟨c, e, hw⟩ := h
  rw [e, mdOpens_iff]
  exact ⟨hw, .inr ho⟩

/-- The last character is no white space. -/
def LastOk (x : List Char) : Prop := ∃ c, x.getLast? = some c ∧ isWhite c = false

theorem LastOk.closes {x : List Char} {o : Option Char} (h : LastOk x) (ho : OuterOk o) : mdCloses x.getLast? o = true := by
  obtain ⟨c, e, hw⟩ := h
  unfold mdCloses
  rw [e, mdOpens_iff]
  exact ⟨hw, .inr ho⟩

theorem OuterOk.none : OuterOk none := by intro b h; cases h

theorem OuterOk.punct {c : Char} (h : c ∈ mdPunct) : OuterOk (some c) := by
  rintro b h'; cases h'; exact .inr h

/-- What may follow: the text `t` has been written. -/
structure MdAfter (f : CharFormat) (t y : List Char) : Prop where
  head : ∀ c, y.head? = some c → c ≠ '`' ∧ c ≠ '*' ∧ c ≠ '~'
  tag : mdIsCode f = false → ∀ c, t.getLast? = some c → (c = '<' ∨ c = '&') → y.head?.any mdTagStart = false

theorem MdAfter.nil (f : CharFormat) (t : List Char) : MdAfter f t [] :=
  ⟨(by intro c h; cases h), fun _ _ _ _ => rfl⟩

/-- The pieces of a text. -/
def mdBase (f : CharFormat) (t : List Char) : List MdInline := if mdIsCode f then [.code t] else t.map fun c => .text [c]

/-- The source of a text. -/
def mdBaseText (f : CharFormat) (t : List Char) : List Char := if mdIsCode f then '`' :: t ++ ['`'] else escapeMarkdownExport t

theorem escape_cons (c : Char) (t : List Char) : escapeMarkdownExport (c :: t) = mdCode mdExportSet c ++ escapeMarkdownExport t := by
  simp [escapeMarkdownExport]

theorem escape_head (c : Char) (t : List Char) : (escapeMarkdownExport (c :: t)).head? = some (if c ∈ mdExportSet then '\\' else c) := by
  rw [escape_cons]
  unfold mdCode
  split <;> rfl

theorem escape_last : ∀ (t : List Char), (escapeMarkdownExport t).getLast? = t.getLast?
  | [] => rfl
  | [c] => by
    rw [escape_cons]
    unfold mdCode
    split <;> rfl
  | c :: d :: t => by
    rw [escape_cons, List.getLast?_append, escape_last (d :: t), List.getLast?_cons_cons]
    cases h : (d :: t).getLast? with
    | none => simp at h
    | some a => rfl

theorem active_split {c : Char} (h : c ∉ mdExportSet) (h2 : c ≠ '`') : c ∉ mdSpecial := by
  intro h3
  simp only [mdSpecial, List.mem_cons, List.not_mem_nil, or_false] at h3
  simp only [mdExportSet, List.mem_cons, List.not_mem_nil, or_false] at h
  rcases h3 with e | e | e | e | e | e | e | e | e | e | e | e | e | e | e | e | e | e <;> first | exact h2 e | exact h (by simp [e])

/-- A plain text: nothing depends on what is before it. -/
theorem escape_reads {t y : List Char} {r : List MdInline} (hc : ∀ c ∈ t, c ≠ '`' ∧ c ∉ mdControl)
    (hp : ∀ L a b R, t = L ++ a :: b :: R → (a = '<' ∨ a = '&') → mdTagStart b = false)
    (hy : ∀ c, t.getLast? = some c → (c = '<' ∨ c = '&') → y.head?.any mdTagStart = false) (b : Option Char)
    (h : MdReads (match t.getLast? with | some c => some c | none => b) y r) :
    MdReads b (escapeMarkdownExport t ++ y) ((t.map fun c => .text [c]) ++ r) := by
  induction t generalizing b with
  | nil => simpa [escapeMarkdownExport] using h
  | cons c t ih =>
    have hrest : MdReads (some c) (escapeMarkdownExport t ++ y) ((t.map fun c => .text [c]) ++ r) := by
      refine ih (fun d hd => hc d (by simp [hd])) (fun L a b R e => hp (c :: L) a b R (by simp [e])) ?_ _ ?_
      · intro d hd
        apply hy d
        cases t with
        | nil => cases hd
        | cons e t => rw [List.getLast?_cons_cons]; exact hd
      · cases t with
        | nil => simpa using h
        | cons e t =>
          rw [List.getLast?_cons_cons] at h
          cases hl : (e :: t).getLast? with
          | none => simp at hl
          | some a => rw [hl] at h; exact h
    rw [escape_cons]
    unfold mdCode
    split
    · rename_i hm
      exact MdReads.escaped (mem_mdExport_punct hm) hrest
    · rename_i hm
      refine MdReads.char (active_split hm (hc c (by simp)).1) (hc c (by simp)).2 ?_ hrest
      intro hca
      cases t with
      | nil =>
        have := hy c rfl hca
        simpa [escapeMarkdownExport] using this
      | cons d t =>
        have h1 := hp [] c d t rfl hca
        show ((escapeMarkdownExport (d :: t) ++ y).head?).any mdTagStart = false
        rw [List.head?_append, escape_head]
        simp only [Option.some_or, Option.any_some]
        split
        · decide
        · exact h1

/-- The text without its marks, whatever is before it. -/
theorem base_reads {f : CharFormat} {t y : List Char} {r : List MdInline} (h0 : t ≠ []) (hc : ∀ c ∈ t, c ≠ '`' ∧ c ∉ mdControl)
    (hp : ∀ L a b R, t = L ++ a :: b :: R → mdIsCode f = false → (a = '<' ∨ a = '&') → mdTagStart b = false)
    (h1 : ∀ c, t.head? = some c → isWhite c = false) (h2 : ∀ c, t.getLast? = some c → isWhite c = false)
    (hy : MdAfter f t y) (b : Option Char) (h : ∀ b', MdReads b' y r) : MdReads b (mdBaseText f t ++ y) (mdBase f t ++ r) := by
  unfold mdBaseText mdBase
  split
  · rw [show '`' :: t ++ ['`'] ++ y = '`' :: t ++ '`' :: y by simp]
    refine MdReads.code h0 ?_ ?_ hc ?_ (h _)
    · intro e; have := h1 _ e; revert this; decide
    · intro e; have := h2 _ e; revert this; decide
    · intro e; exact (hy.head _ e).1 rfl
  · rename_i hf
    have hf : mdIsCode f = false := by simpa using hf
    exact escape_reads hc (fun L a b R e => hp L a b R e hf) (hy.tag hf) b (h _)

theorem baseText_head {f : CharFormat} {c : Char} {t : List Char} (hw : isWhite c = false) :
    HeadOk (mdBaseText f (c :: t)) ∧ (∀ d, (mdBaseText f (c :: t)).head? = some d → d ≠ '*' ∧ d ≠ '~' ∧ (mdIsCode f = false → c.isAlphanum = true → d.isAlphanum = true)) := by
  unfold mdBaseText
  split
  · rename_i hf
    refine ⟨⟨'`', rfl, by decide⟩, ?_⟩
    intro d hd
    cases hd
    exact ⟨by decide, by decide, fun h => by rw [hf] at h; cases h⟩
  · unfold HeadOk
    rw [escape_head]
    split
    · rename_i hm
      refine ⟨⟨'\\', rfl, by decide⟩, ?_⟩
      intro d hd
      cases hd
      refine ⟨by decide, by decide, fun _ ha => ?_⟩
      exfalso
      revert hm ha
      simp only [mdExportSet, List.mem_cons, List.not_mem_nil, or_false]
      rintro (rfl | rfl | rfl | rfl | rfl | rfl | rfl | rfl | rfl | rfl | rfl | rfl | rfl | rfl | rfl | rfl | rfl) <;> decide
    · rename_i hm
      refine ⟨⟨c, rfl, hw⟩, ?_⟩
      intro d hd
      cases hd
      exact ⟨fun e => hm (by rw [e]; decide), fun e => hm (by rw [e]; decide), fun _ h => h⟩

theorem baseText_last {f : CharFormat} {t : List Char} {c : Char} (hl : t.getLast? = some c) (hw : isWhite c = false) :
    LastOk (mdBaseText f t) ∧ (∀ d, (mdBaseText f t).getLast? = some d → mdIsCode f = false → c.isAlphanum = true → d.isAlphanum = true) := by
  unfold mdBaseText
  split
  · rename_i hf
    have e : ('`' :: t ++ ['`']).getLast? = some '`' := by rw [List.getLast?_append]; rfl
    unfold LastOk
    rw [e]
    exact ⟨⟨'`', rfl, by decide⟩, fun d hd h => by rw [hf] at h; cases h⟩
  · unfold LastOk
    rw [escape_last, hl]
    exact ⟨⟨c, rfl, hw⟩, by rintro d hd; cases hd; exact fun _ h => h⟩

theorem baseText_skips {f : CharFormat} {d t : List Char} (h0 : d ≠ []) (hd : ∀ c, d.head? = some c → c ∈ mdExportSet ∧ c ≠ '\\')
    (ht : ∀ c ∈ t, c ≠ '`') : MdSkips d (mdBaseText f t) := by
  unfold mdBaseText
  split
  · exact MdSkips.code h0 (fun e => absurd (hd _ e).1 (by decide)) ht
  · exact MdSkips.escape h0 hd ht

/-! ### Marks -/

/-- The number of stars. -/
def mdStars (f : CharFormat) : Nat :=
  if (mdLook f).bold = true ∧ (mdLook f).italic = true then 3 else if (mdLook f).bold = true then 2 else if (mdLook f).italic = true then 1 else 0

/-- Tildes around a text. -/
def mdStruck (f : CharFormat) (x : List Char) : List Char := if (mdLook f).strike then "~~".toList ++ x ++ "~~".toList else x

/-- Stars around a text. -/
def mdStarText (f : CharFormat) (x : List Char) : List Char := List.replicate (mdStars f) '*' ++ x ++ List.replicate (mdStars f) '*'

theorem mdMarks_eq (f : CharFormat) (t : List Char) :
    Store.mdMarks f (if f.fontFamily = some "monospace" then t else escapeMarkdownExport t) =
      match f.anchorHref with
      | some href => '[' :: mdStarText f (mdStruck f (mdBaseText f t)) ++ "](".toList ++ href.toList ++ [')']
      | none => mdStarText f (mdStruck f (mdBaseText f t)) := by
  have e : (if f.fontFamily = some "monospace" then
      '`' :: (if f.fontFamily = some "monospace" then t else escapeMarkdownExport t) ++ ['`']
      else (if f.fontFamily = some "monospace" then t else escapeMarkdownExport t)) = mdBaseText f t := by
    unfold mdBaseText mdIsCode
    by_cases h : f.fontFamily = some "monospace" <;> simp [h]
  unfold Store.mdMarks
  rw [e]
  simp only
  have e2 : (if f.fontStrikeout = some true then "~~".toList ++ mdBaseText f t ++ "~~".toList else mdBaseText f t) = mdStruck f (mdBaseText f t) := by
    unfold mdStruck mdLook
    by_cases h : f.fontStrikeout = some true <;> simp [h]
  rw [e2]
  have e3 : ∀ x : List Char, (if f.fontBold = some true ∧ f.fontItalic = some true then "***".toList ++ x ++ "***".toList
      else if f.fontBold = some true then "**".toList ++ x ++ "**".toList
      else if f.fontItalic = some true then '*' :: x ++ ['*'] else x) = mdStarText f x := by
    intro x
    unfold mdStarText mdStars mdLook
    by_cases h1 : f.fontBold = some true <;> by_cases h2 : f.fontItalic = some true <;> simp [h1, h2, List.replicate]
  rw [e3]
  cases f.anchorHref <;> rfl

/-- Pieces with the mark for struck-out text. -/
def mdStruckAs (f : CharFormat) (xs : List MdInline) : List MdInline := if (mdLook f).strike then [.mark .strike xs] else xs

/-- Pieces with the marks of stars. -/
def mdStarAs (f : CharFormat) (xs : List MdInline) : List MdInline := if mdStars f = 0 then xs else [mdStarred (mdStars f) xs]

/-- Pieces with their link. -/
def mdLinkAs (f : CharFormat) (xs : List MdInline) : List MdInline :=
  match f.anchorHref with
  | some u => [.mark (.link u) xs]
  | none => xs

/-- A text with all its marks. -/
def mdAs (f : CharFormat) (t : List Char) : List MdInline := mdLinkAs f (mdStarAs f (mdStruckAs f (mdBase f t)))

/-- Marks may stand between the text and what is around it. -/
def MdSides (f : CharFormat) (t : List Char) (b : Option Char) (y : List Char) : Prop :=
  (∃ c, t.head? = some c ∧ mdBorder f c b) ∧ (∃ c, t.getLast? = some c ∧ mdBorder f c y.head?)

theorem mdStars_zero {f : CharFormat} : mdStars f = 0 ↔ (mdLook f).bold = false ∧ (mdLook f).italic = false := by
  unfold mdStars
  cases (mdLook f).bold <;> cases (mdLook f).italic <;> simp

theorem mdStars_le (f : CharFormat) : mdStars f ≤ 3 := by
  unfold mdStars
  cases (mdLook f).bold <;> cases (mdLook f).italic <;> simp

theorem struck_reads {f : CharFormat} {t y : List Char} {r : List MdInline} (h0 : t ≠ []) (hc : ∀ c ∈ t, c ≠ '`' ∧ c ∉ mdControl)
    (hp : ∀ L a b R, t = L ++ a :: b :: R → mdIsCode f = false → (a = '<' ∨ a = '&') → mdTagStart b = false)
    (h1 : ∀ c, t.head? = some c → isWhite c = false) (h2 : ∀ c, t.getLast? = some c → isWhite c = false)
    (hy : MdAfter f t y) (b : Option Char)
    (hs : (mdLook f).strike = true → mdOpens b (mdBaseText f t).head? = true ∧ mdCloses (mdBaseText f t).getLast? y.head? = true)
    (h : ∀ b', MdReads b' y r) : MdReads b (mdStruck f (mdBaseText f t) ++ y) (mdStruckAs f (mdBase f t) ++ r) := by
  unfold mdStruck mdStruckAs
  split
  · rename_i hf
    obtain ⟨o, k⟩ := hs hf
    have hb : mdBaseText f t ≠ [] := by
      cases t with
      | nil => exact absurd rfl h0
      | cons c t =>
        obtain ⟨⟨d, e, _⟩, _⟩ := baseText_head (f := f) (t := t) (h1 c rfl)
        intro e'; rw [e'] at e; cases e
    rw [show "~~".toList ++ mdBaseText f t ++ "~~".toList ++ y = "~~".toList ++ mdBaseText f t ++ ("~~".toList ++ y) by simp]
    refine MdReads.tildes hb ?_ (baseText_skips (by decide) (by intro c e; cases e; decide) fun c hc' => (hc c hc').1) ?_ ?_ o k (h _)
    · cases t with
      | nil => exact absurd rfl h0
      | cons c t =>
        intro e
        exact ((baseText_head (f := f) (t := t) (h1 c rfl)).2 _ e).2.1 rfl
    · have := base_reads h0 hc hp h1 h2 (MdAfter.nil f t) (some '~') (r := []) (fun b' => MdReads.nil b')
      simpa using this
    · intro e; exact (hy.head _ e).2.2 rfl
  · exact base_reads h0 hc hp h1 h2 hy b h

theorem struck_ok {f : CharFormat} {x : List Char} (h1 : HeadOk x) (h2 : LastOk x) : HeadOk (mdStruck f x) ∧ LastOk (mdStruck f x) := by
  unfold mdStruck
  split
  · exact ⟨⟨'~', rfl, by decide⟩, ⟨'~', by rw [List.getLast?_append]; rfl, by decide⟩⟩
  · exact ⟨h1, h2⟩

theorem struck_skips {f : CharFormat} {d x : List Char} (h0 : d ≠ []) (hd : d.head? ≠ some '~') (h : MdSkips d x) : MdSkips d (mdStruck f x) := by
  unfold mdStruck
  split
  · have ht : MdSkips d "~~".toList := MdSkips.chars h0 (by
      intro c hc
      have : c = '~' := by simpa using hc
      subst this
      exact ⟨hd, by decide, by decide⟩)
    exact (ht.append h).append ht
  · exact h

theorem starred_reads {f : CharFormat} {t y : List Char} {r : List MdInline} (h0 : t ≠ []) (hc : ∀ c ∈ t, c ≠ '`' ∧ c ∉ mdControl)
    (hp : ∀ L a b R, t = L ++ a :: b :: R → mdIsCode f = false → (a = '<' ∨ a = '&') → mdTagStart b = false)
    (h1 : ∀ c, t.head? = some c → isWhite c = false) (h2 : ∀ c, t.getLast? = some c → isWhite c = false)
    (hy : MdAfter f t y) (b : Option Char)
    (hs : mdStars f = 0 → (mdLook f).strike = true → mdOpens b (mdBaseText f t).head? = true ∧ mdCloses (mdBaseText f t).getLast? y.head? = true)
    (hk : mdStars f ≠ 0 → mdOpens b (mdStruck f (mdBaseText f t)).head? = true ∧ mdCloses (mdStruck f (mdBaseText f t)).getLast? y.head? = true)
    (h : ∀ b', MdReads b' y r) :
    MdReads b (mdStarText f (mdStruck f (mdBaseText f t)) ++ y) (mdStarAs f (mdStruckAs f (mdBase f t)) ++ r) := by
  unfold mdStarText mdStarAs
  split
  · rename_i h3
    rw [h3]
    simpa using struck_reads h0 hc hp h1 h2 hy b (hs h3) h
  · rename_i h3
    obtain ⟨o, k⟩ := hk h3
    cases t with
    | nil => exact absurd rfl h0
    | cons c t =>
      obtain ⟨hd1, hd2⟩ := baseText_head (f := f) (t := t) (h1 c rfl)
      obtain ⟨e, he⟩ : ∃ e, (c :: t).getLast? = some e := by
        cases h' : (c :: t).getLast? with
        | none => simp at h'
        | some e => exact ⟨e, rfl⟩
      obtain ⟨hl1, _⟩ := baseText_last (f := f) he (h2 e he)
      obtain ⟨hh, hl⟩ := struck_ok (f := f) hd1 hl1
      rw [show ∀ a x b y : List Char, a ++ x ++ b ++ y = a ++ x ++ (b ++ y) by intros; simp]
      refine MdReads.stars _ ⟨by omega, mdStars_le f⟩ ?_ ?_ ?_ ?_ ?_ o k (h _)
      · obtain ⟨d, e, _⟩ := hh
        intro e'; rw [e'] at e; cases e
      · unfold mdStruck
        split
        · exact fun e => absurd (Option.some.inj e) (by decide)
        · intro e; exact (hd2 _ e).1 rfl
      · have hne : List.replicate (mdStars f) '*' ≠ [] := by simpa using h3
        have hhd : ∀ c, (List.replicate (mdStars f) '*').head? = some c → c = '*' := by
          intro c hc
          have : c ∈ List.replicate (mdStars f) '*' := List.mem_of_mem_head? hc
          exact (List.mem_replicate.mp this).2
        apply struck_skips hne (fun e => absurd (hhd _ e) (by decide))
        exact baseText_skips hne (fun c e => by rw [hhd c e]; decide) fun c hc' => (hc c hc').1
      · have := struck_reads h0 hc hp h1 h2 (MdAfter.nil f (c :: t)) (some '*') (r := [])
          (fun _ => ⟨hd1.opens (OuterOk.punct (by decide)), hl1.closes OuterOk.none⟩) (fun b' => MdReads.nil b')
        simpa using this
      · intro e; exact (hy.head _ e).2.1 rfl

theorem border_outer {f : CharFormat} {c : Char} {o : Option Char} (hb : mdBorder f c o) (hl : (mdLook f).link = none) :
    (mdStars f = 0 ∧ (mdLook f).strike = false) ∨ OuterOk o ∨
      (c.isAlphanum = true ∧ mdIsCode f = false ∧ ((mdLook f).strike = false ∨ mdStars f = 0)) := by
  rw [mdStars_zero]
  rcases hb.2 with h | h | h | h
  · exact absurd hl h
  · exact .inl ⟨⟨h.1, h.2.1⟩, h.2.2⟩
  · exact .inr (.inl h)
  · exact .inr (.inr h)

/-- A text with all its marks. -/
theorem marked_reads {f : CharFormat} {t y : List Char} {r : List MdInline} (hc : ∀ c ∈ t, c ≠ '`' ∧ c ∉ mdControl)
    (hp : ∀ L a b R, t = L ++ a :: b :: R → mdIsCode f = false → (a = '<' ∨ a = '&') → mdTagStart b = false)
    (hu : ∀ u, f.anchorHref = some u → u.toList.all mdUrlChar = true)
    (hy : MdAfter f t y) (b : Option Char) (hs : MdSides f t b y) (h : ∀ b', MdReads b' y r) :
    MdReads b (Store.mdMarks f (if f.fontFamily = some "monospace" then t else escapeMarkdownExport t) ++ y) (mdAs f t ++ r) := by
  obtain ⟨⟨c, e1, b1⟩, ⟨e, e2, b2⟩⟩ := hs
  have h0 : t ≠ [] := by rintro rfl; cases e1
  have h1 : ∀ c, t.head? = some c → isWhite c = false := by intro c' hc'; rw [e1] at hc'; cases hc'; exact b1.1
  have h2 : ∀ c, t.getLast? = some c → isWhite c = false := by intro c' hc'; rw [e2] at hc'; cases hc'; exact b2.1
  obtain ⟨t', rfl⟩ : ∃ t', t = c :: t' := by
    cases t with
    | nil => cases e1
    | cons a t => cases e1; exact ⟨t, rfl⟩
  obtain ⟨hd1, hd2⟩ := baseText_head (f := f) (t := t') b1.1
  obtain ⟨hl1, hl2⟩ := baseText_last (f := f) e2 b2.1
  obtain ⟨hh, hl⟩ := struck_ok (f := f) hd1 hl1
  rw [mdMarks_eq]
  unfold mdAs mdLinkAs
  cases hlink : f.anchorHref with
  | some u =>
    simp only
    rw [show ∀ x z : List Char, '[' :: x ++ "](".toList ++ z ++ [')'] ++ y = '[' :: x ++ "](".toList ++ z ++ ')' :: y by intros; simp]
    have hq := starred_reads h0 hc hp h1 h2 (MdAfter.nil f (c :: t')) (some '[') (r := [])
      (fun _ _ => ⟨hd1.opens (OuterOk.punct (by decide)), hl1.closes OuterOk.none⟩)
      (fun _ => ⟨hh.opens (OuterOk.punct (by decide)), hl.closes OuterOk.none⟩) (fun b' => MdReads.nil b')
    rw [List.append_nil, List.append_nil] at hq
    have := MdReads.link (b := b) (t := mdStarText f (mdStruck f (mdBaseText f (c :: t')))) (u := u.toList) (x := y) (r := r) ?_ hq (hu u hlink) (h _)
    · rw [String.ofList_toList] at this
      exact this
    · have hbs := baseText_skips (f := f) (d := "](".toList) (by decide) (by intro c e; cases e; decide) fun c hc' => (hc c hc').1
      have hst := struck_skips (f := f) (by decide) (by decide) hbs
      have hs : MdSkips "](".toList (List.replicate (mdStars f) '*') := MdSkips.chars (by decide) (by
        intro c hc
        rw [(List.mem_replicate.mp hc).2]; decide)
      exact (hs.append hst).append hs
  | none =>
    simp only
    have hln : (mdLook f).link = none := hlink
    refine starred_reads h0 hc hp h1 h2 hy b ?_ ?_ h
    · intro hz hstr
      constructor
      · rcases border_outer b1 hln with h | h | h
        · rw [h.2] at hstr; cases hstr
        · exact hd1.opens h
        · obtain ⟨d, e, hw⟩ := hd1
          rw [e, mdOpens_iff]
          exact ⟨hw, .inl ((hd2 d e).2.2 h.2.1 h.1)⟩
      · rcases border_outer b2 hln with h | h | h
        · rw [h.2] at hstr; cases hstr
        · exact hl1.closes h
        · obtain ⟨d, e, hw⟩ := hl1
          unfold mdCloses
          rw [e, mdOpens_iff]
          exact ⟨hw, .inl (hl2 d e h.2.1 h.1)⟩
    · intro hz
      constructor
      · rcases border_outer b1 hln with h | h | h
        · exact absurd h.1 hz
        · exact hh.opens h
        · have hns : (mdLook f).strike = false := by
            rcases h.2.2 with h | h
            · exact h
            · exact absurd h hz
          have : mdStruck f (mdBaseText f (c :: t')) = mdBaseText f (c :: t') := by simp [mdStruck, hns]
          rw [this]
          obtain ⟨d, e, hw⟩ := hd1
          rw [e, mdOpens_iff]
          exact ⟨hw, .inl ((hd2 d e).2.2 h.2.1 h.1)⟩
      · rcases border_outer b2 hln with h | h | h
        · exact absurd h.1 hz
        · exact hl.closes h
        · have hns : (mdLook f).strike = false := by
            rcases h.2.2 with h | h
            · exact h
            · exact absurd h hz
          have : mdStruck f (mdBaseText f (c :: t')) = mdBaseText f (c :: t') := by simp [mdStruck, hns]
          rw [this]
          obtain ⟨d, e, hw⟩ := hl1
          unfold mdCloses
          rw [e, mdOpens_iff]
          exact ⟨hw, .inl (hl2 d e h.2.1 h.1)⟩

/-- A text without marks. -/
theorem unmarked {f : CharFormat} (h : ¬ mdDecorated f) (t : List Char) :
    Store.mdMarks f (if f.fontFamily = some "monospace" then t else escapeMarkdownExport t) = escapeMarkdownExport t ∧
    mdAs f t = t.map (fun c => .text [c]) ∧ mdIsCode f = false := by
  unfold mdDecorated at h
  simp only [not_or, Bool.not_eq_true] at h
  obtain ⟨a, b, c, d, e⟩ := h
  have hz : mdStars f = 0 := mdStars_zero.mpr ⟨b, c⟩
  have he : f.anchorHref = none := by
    cases he : f.anchorHref with
    | none => rfl
    | some u => exact absurd (show (mdLook f).link ≠ none by simp [mdLook, he]) e
  refine ⟨?_, ?_, a⟩
  · rw [mdMarks_eq, he]
    simp [mdStarText, hz, mdStruck, d, mdBaseText, a]
  · simp [mdAs, mdLinkAs, he, mdStarAs, hz, mdStruckAs, d, mdBase, a]

/-! ### The runs of a paragraph -/

/-- The characters of a run. -/
def segChs : Segment CharFormat → List SChar
  | .text t f => t.map fun c => (c, some f)
  | .image _ => []

/-- Runs of text, none of them empty. -/
def TextSegs (segs : List (Segment CharFormat)) : Prop := ∀ g ∈ segs, ∃ t f, g = .text t f ∧ t ≠ []

/-- Neighbours with the same format have none. -/
def ApartSegs (segs : List (Segment CharFormat)) : Prop :=
  ∀ L t (f : CharFormat) t' f' R, segs = L ++ .text t f :: .text t' f' :: R → f ≠ f' ∨ f = {}

theorem ApartSegs.tail {g : Segment CharFormat} {segs : List (Segment CharFormat)} (h : ApartSegs (g :: segs)) : ApartSegs segs :=
  fun L t f t' f' R e => h (g :: L) t f t' f' R (by rw [e]; rfl)

theorem mdSegment_text {t : List Char} (f : CharFormat) (h : t ≠ []) :
    Store.mdSegment (.text t f) = Store.mdMarks f (if f.fontFamily = some "monospace" then t else escapeMarkdownExport t) := by
  show (if t = [] then [] else _) = _
  rw [if_neg h]

theorem undecorated_default : ¬ mdDecorated {} := by
  unfold mdDecorated mdLook mdIsCode
  simp

theorem segs_head {t : List Char} {f : CharFormat} (h : t ≠ []) (hd : ¬ mdDecorated f) (segs : List (Segment CharFormat)) :
    ∃ c, t.head? = some c ∧ ((Segment.text t f :: segs).flatMap Store.mdSegment).head? = some (if c ∈ mdExportSet then '\\' else c) := by
  cases t with
  | nil => exact absurd rfl h
  | cons c t =>
    refine ⟨c, rfl, ?_⟩
    rw [List.flatMap_cons, mdSegment_text f h, (unmarked hd _).1, List.head?_append, escape_head]
    rfl

theorem mdMarks_head {f : CharFormat} (h : mdDecorated f) (t : List Char) (h0 : t ≠ []) :
    ∃ c, (Store.mdMarks f (if f.fontFamily = some "monospace" then t else escapeMarkdownExport t)).head? = some c ∧ mdTagStart c = false := by
  rw [mdMarks_eq]
  cases hl : f.anchorHref with
  | some u => exact ⟨'[', rfl, by decide⟩
  | none =>
    simp only
    unfold mdStarText
    cases hs : mdStars f with
    | succ n => exact ⟨'*', by simp [List.replicate_succ], by decide⟩
    | zero =>
      unfold mdStruck
      split
      · exact ⟨'~', rfl, by decide⟩
      · rename_i hst
        unfold mdBaseText
        split
        · exact ⟨'`', rfl, by decide⟩
        · rename_i hcode
          exfalso
          obtain ⟨z1, z2⟩ := mdStars_zero.mp hs
          unfold mdDecorated at h
          rcases h with h | h | h | h | h
          · exact hcode h
          · rw [z1] at h; cases h
          · rw [z2] at h; cases h
          · exact hst h
          · exact h hl

/-- What a line says. -/
def segsAs (segs : List (Segment CharFormat)) : List MdInline :=
  segs.flatMap fun
    | .text t f => mdAs f t
    | .image _ => []

theorem segs_read : ∀ (segs : List (Segment CharFormat)) (prev : Option SChar) (b : Option Char),
    TextSegs segs → ApartSegs segs → (∀ c ∈ segs.flatMap segChs, mdChar c) →
    (∀ L a e R, prev.toList ++ segs.flatMap segChs = L ++ a :: e :: R → mdPair a e) →
    (prev = none → b = none) → (prev = none → ∀ c, (segs.flatMap segChs).head? = some c → isWhite c.1 = false) →
    (∀ c, (segs.flatMap segChs).getLast? = some c → isWhite c.1 = false) →
    (∀ t f rest, segs = .text t f :: rest → mdDecorated f → ∀ a, prev = some a → a.2.getD {} ≠ f ∧ (¬ mdDecorated (a.2.getD {}) → b = some a.1)) →
    MdReads b (segs.flatMap Store.mdSegment) (segsAs segs)
  | [], _, b, _, _, _, _, _, _, _, _ => MdReads.nil b
  | g :: segs, prev, b, ht, ha, hc, hp, hn, hh, hl, hb => by
    obtain ⟨t, f, rfl, h0⟩ := ht g (by simp)
    have ht' : TextSegs segs := fun g' hg' => ht g' (by simp [hg'])
    obtain ⟨a, t', e1⟩ : ∃ a t', t = a :: t' := by
      cases t with
      | nil => exact absurd rfl h0
      | cons a t => exact ⟨a, t, rfl⟩
    obtain ⟨z, t'', e2⟩ : ∃ z t'', t = t'' ++ [z] := ⟨t.getLast h0, t.dropLast, (List.dropLast_concat_getLast h0).symm⟩
    have ehead : t.head? = some a := by rw [e1]; rfl
    have elast : t.getLast? = some z := by rw [e2]; simp
    have hchs : (Segment.text t f :: segs).flatMap segChs = t.map (fun c => (c, some f)) ++ segs.flatMap segChs := by
      rw [List.flatMap_cons]; rfl
    rw [hchs] at hc hp hh hl
    have hmem : ∀ c ∈ t, (c, some f) ∈ t.map (fun c => ((c, some f) : SChar)) ++ segs.flatMap segChs := by
      intro c hc'
      exact List.mem_append_left _ (List.mem_map.mpr ⟨c, hc', rfl⟩)
    have hct : ∀ c ∈ t, c ≠ '`' ∧ c ∉ mdControl := fun c hc' => ⟨(hc _ (hmem c hc')).1, (hc _ (hmem c hc')).2.1⟩
    have hin : ∀ L x y R, t = L ++ x :: y :: R → mdIsCode f = false → (x = '<' ∨ x = '&') → mdTagStart y = false := by
      intro L x y R e hf hx
      have := hp (prev.toList ++ L.map fun c => (c, some f)) (x, some f) (y, some f) (R.map (fun c => (c, some f)) ++ segs.flatMap segChs)
        (by rw [e]; simp)
      exact this.2 hf hx
    -- what comes after
    have hrec : ∀ b', (mdDecorated f ∨ b' = some z) → MdReads b' (segs.flatMap Store.mdSegment) (segsAs segs) := by
      intro b' hb'
      refine segs_read segs (some (z, some f)) b' ht' ha.tail (fun c hc' => hc c (List.mem_append_right _ hc')) ?_ (by intro h; cases h)
        (by intro h; cases h) ?_ ?_
      · intro L x y R e
        refine hp (prev.toList ++ t''.map (fun c => (c, some f)) ++ L) x y R ?_
        rw [e2]
        have e' : [(z, some f)] ++ segs.flatMap segChs = L ++ x :: y :: R := e
        rw [List.map_append, List.append_assoc (List.map _ t''), show List.map (fun c => ((c, some f) : SChar)) [z] = [(z, some f)] from rfl, e']
        simp
      · intro c hc'
        apply hl c
        rw [List.getLast?_append, hc']; rfl
      · intro t2 f2 rest e hd2 x hx
        cases hx
        have hap := ha [] t f t2 f2 rest (by rw [e]; rfl)
        by_cases hdf : mdDecorated f
        · have hne : f ≠ f2 := by
            rcases hap with h | h
            · exact h
            · rw [h] at hdf; exact absurd hdf undecorated_default
          exact ⟨hne, fun h => absurd hdf h⟩
        · refine ⟨?_, fun _ => ?_⟩
          · rintro rfl; exact hdf hd2
          · rcases hb' with h | h
            · exact absurd h hdf
            · exact h
    -- the source after
    have hnext : segs = [] ∨ ∃ c t2 f2 rest, segs = .text (c :: t2) f2 :: rest ∧ mdPair (z, some f) (c, some f2) ∧ (f ≠ f2 ∨ f = {}) := by
      cases segs with
      | nil => exact .inl rfl
      | cons g2 rest =>
        obtain ⟨t2, f2, rfl, h2⟩ := ht' g2 (by simp)
        cases t2 with
        | nil => exact absurd rfl h2
        | cons c t2 =>
          refine .inr ⟨c, t2, f2, rest, rfl, ?_, ha [] t f (c :: t2) f2 rest rfl⟩
          refine hp (prev.toList ++ t''.map fun c => (c, some f)) (z, some f) (c, some f2) (t2.map (fun c => (c, some f2)) ++ rest.flatMap segChs) ?_
          rw [e2, List.flatMap_cons]
          simp [segChs]
    have hseg : Store.mdSegment (.text t f) = Store.mdMarks f (if f.fontFamily = some "monospace" then t else escapeMarkdownExport t) := mdSegment_text f h0
    have hgoal1 : (Segment.text t f :: segs).flatMap Store.mdSegment =
        Store.mdMarks f (if f.fontFamily = some "monospace" then t else escapeMarkdownExport t) ++ segs.flatMap Store.mdSegment := by
      rw [List.flatMap_cons, hseg]
    have hgoal2 : segsAs (.text t f :: segs) = mdAs f t ++ segsAs segs := by
      unfold segsAs
      rw [List.flatMap_cons]
    rw [hgoal1, hgoal2]
    by_cases hd : mdDecorated f
    · -- the next run is plain
      have hnext' : segs = [] ∨ ∃ c t2 f2 rest, segs = .text (c :: t2) f2 :: rest ∧ ¬ mdDecorated f2 ∧ mdBorder f z (some c) ∧ mdChar (c, some f2) ∧
          (mdIsCode f = false → (z = '<' ∨ z = '&') → mdTagStart c = false) := by
        rcases hnext with h | ⟨c, t2, f2, rest, e, hpair, hap⟩
        · exact .inl h
        · have hne : f ≠ f2 := by
            rcases hap with h | h
            · exact h
            · rw [h] at hd; exact absurd hd undecorated_default
          obtain ⟨p1, p2, p3⟩ := hpair.1 hne
          refine .inr ⟨c, t2, f2, rest, e, ?_, p2 hd, ?_, hpair.2⟩
          · rcases p1 with h | h
            · exact absurd hd h
            · exact h
          · apply hc
            rw [e, List.flatMap_cons]
            simp [segChs]
      have hy : MdAfter f t (segs.flatMap Store.mdSegment) := by
        rcases hnext' with h | ⟨c, t2, f2, rest, e, hd2, _, hch, htag⟩
        · rw [h]; exact MdAfter.nil f t
        · obtain ⟨c', k1, k2⟩ := segs_head (t := c :: t2) (by simp) hd2 rest
          cases k1
          rw [e]
          constructor
          · intro x hx
            rw [k2] at hx
            cases hx
            split
            · decide
            · rename_i hm
              exact ⟨hch.1, fun e => hm (by rw [e]; decide), fun e => hm (by rw [e]; decide)⟩
          · intro hf x hx hxx
            rw [elast] at hx
            cases hx
            rw [k2]
            simp only [Option.any_some]
            split
            · decide
            · exact htag hf hxx
      have hsides : MdSides f t b (segs.flatMap Store.mdSegment) := by
        constructor
        · refine ⟨a, ehead, ?_⟩
          cases prev with
          | none =>
            rw [hn rfl]
            refine ⟨hh rfl (a, some f) (by rw [e1]; rfl), .inr (.inr (.inl ?_))⟩
            intro _ h; cases h
          | some x =>
            obtain ⟨q1, q2⟩ := hb t f segs rfl hd x rfl
            have hpair := hp [] x (a, some f) (t'.map (fun c => (c, some f)) ++ segs.flatMap segChs) (by rw [e1]; rfl)
            obtain ⟨p1, _, p3⟩ := hpair.1 q1
            have hxd : ¬ mdDecorated (x.2.getD {}) := by
              rcases p1 with h | h
              · exact h
              · exact absurd hd h
            rw [q2 hxd]
            exact p3 hd
        · refine ⟨z, elast, ?_⟩
          rcases hnext' with h | ⟨c, t2, f2, rest, e, hd2, hbor, hch, htag⟩
          · rw [h]
            refine ⟨hl (z, some f) (by rw [h, e2]; simp), .inr (.inr (.inl ?_))⟩
            intro _ h; cases h
          · obtain ⟨c', k1, k2⟩ := segs_head (t := c :: t2) (by simp) hd2 rest
            cases k1
            rw [e, k2]
            refine ⟨hbor.1, ?_⟩
            rcases hbor.2 with h | h | h | h
            · exact .inl h
            · exact .inr (.inl h)
            · refine .inr (.inr (.inl ?_))
              intro x hx
              cases hx
              split
              · exact .inr (by decide)
              · exact h c rfl
            · exact .inr (.inr (.inr h))
      exact marked_reads hct hin (fun u hu => (hc _ (hmem a (by rw [e1]; simp))).2.2 u hu) hy b hsides fun b' => hrec b' (.inl hd)
    · obtain ⟨u1, u2, u3⟩ := unmarked hd t
      rw [u1, u2]
      refine escape_reads hct (fun L x y R e => hin L x y R e u3) ?_ b ?_
      · intro x hx hxx
        rw [elast] at hx
        cases hx
        rcases hnext with h | ⟨c, t2, f2, rest, e, hpair, _⟩
        · rw [h]; rfl
        · have htag := hpair.2 u3 hxx
          by_cases hd2 : mdDecorated f2
          · have := mdMarks_head hd2 (c :: t2) (by simp)
            obtain ⟨y, k1, k2⟩ := this
            rw [e, List.flatMap_cons, List.head?_append, mdSegment_text f2 (by simp), k1]
            simp only [Option.some_or, Option.any_some]
            exact k2
          · obtain ⟨c', k1, k2⟩ := segs_head (t := c :: t2) (by simp) hd2 rest
            cases k1
            rw [e, k2]
            simp only [Option.any_some]
            split
            · decide
            · exact htag
      · rw [elast]
        exact hrec (some z) (.inr rfl)

end Verif
