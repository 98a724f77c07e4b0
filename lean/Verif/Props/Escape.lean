import Verif.Model.Escape
import Verif.Spec.Escape
/- C45: exported text is properly escaped. -/
namespace Verif

/-- No code is a prefix of another one (or of itself under another meaning). -/
def Syntax.prefixFree (x : Syntax) : Prop :=
  ∀ p ∈ x.codes, ∀ q ∈ x.codes, p.1.isPrefixOf q.1 = true → p = q

instance (x : Syntax) : Decidable x.prefixFree := by unfold Syntax.prefixFree; infer_instance

theorem find_code {x : Syntax} (hp : x.prefixFree) {p : List Char × Char} (hm : p ∈ x.codes)
    (rest : List Char) : (x.codes.find? fun q => q.1.isPrefixOf (p.1 ++ rest)) = some p := by
  cases hf : x.codes.find? fun q => q.1.isPrefixOf (p.1 ++ rest) with
  | none =>
    rw [List.find?_eq_none] at hf
    exact absurd (List.isPrefixOf_iff_prefix.mpr (List.prefix_append _ _)) (hf p hm)
  | some q =>
    have hq := List.find?_some hf
    have hqm := List.mem_of_find?_eq_some hf
    rw [List.isPrefixOf_iff_prefix] at hq
    have : q = p := by
      rcases List.prefix_or_prefix_of_prefix hq (List.prefix_append p.1 rest) with h | h
      · exact hp q hqm p hm (List.isPrefixOf_iff_prefix.mpr h)
      · exact (hp p hm q hqm (List.isPrefixOf_iff_prefix.mpr h)).symm
    rw [this]

/-- Escaping character by character, with the codes of the syntax for its active characters, is read
back exactly. -/
theorem read_escaped {x : Syntax} (hp : x.prefixFree) (hne : ∀ p ∈ x.codes, ∃ c t, p.1 = c :: t ∧ c ∈ x.active)
    {esc : Char → List Char} {s : List Char}
    (he : ∀ c ∈ s, (esc c, c) ∈ x.codes ∨ (esc c = [c] ∧ c ∉ x.active)) :
    x.read (s.flatMap esc) = some s := by
  have key : ∀ s : List Char, (∀ c ∈ s, (esc c, c) ∈ x.codes ∨ (esc c = [c] ∧ c ∉ x.active)) →
      ∀ n, (s.flatMap esc).length ≤ n → x.readItems n (s.flatMap esc) = some s := by
    intro s
    induction s with
    | nil => intro _ n _; cases n <;> rfl
    | cons c s ih =>
      intro he n hn
      have ih := ih fun d hd => he d (List.mem_cons_of_mem _ hd)
      rw [List.flatMap_cons] at hn ⊢
      rcases he c (List.mem_cons_self ..) with h | ⟨h, ha⟩
      · obtain ⟨a, t, ht, _⟩ := hne _ h
        simp only at ht
        rw [List.length_append] at hn
        have hfc := find_code hp h (s.flatMap esc)
        simp only [ht, List.cons_append] at hfc
        rw [ht] at hn ⊢
        rw [List.length_cons] at hn
        cases n with
        | zero => omega
        | succ n =>
          rw [List.cons_append, Syntax.readItems, hfc]
          simp only
          rw [List.length_cons, List.drop_succ_cons, List.drop_left, ih n (by omega)]
          rfl
      · rw [h] at hn ⊢
        rw [List.singleton_append, List.length_cons] at hn
        cases n with
        | zero => omega
        | succ n =>
          have hnone : (x.codes.find? fun p => p.1.isPrefixOf (c :: s.flatMap esc)) = none := by
            rw [List.find?_eq_none]
            intro p hpm hpre
            obtain ⟨a, t, ht, haa⟩ := hne p hpm
            rw [ht, List.isPrefixOf_cons_cons, Bool.and_eq_true, beq_iff_eq] at hpre
            exact ha (hpre.1 ▸ haa)
          rw [List.singleton_append, Syntax.readItems, hnone]
          simp only
          rw [if_neg ha, ih n (by omega)]
          rfl
  exact key s he _ (Nat.le_refl _)

theorem htmlCode_codes (c : Char) : (htmlCode c, c) ∈ htmlSyntax.codes ∨
    (htmlCode c = [c] ∧ c ∉ htmlSyntax.active) := by
  unfold htmlCode
  by_cases h1 : c = '&'
  · subst h1; exact .inl (by decide)
  rw [if_neg h1]
  by_cases h2 : c = '<'
  · subst h2; exact .inl (by decide)
  rw [if_neg h2]
  by_cases h3 : c = '>'
  · subst h3; exact .inl (by decide)
  rw [if_neg h3]
  by_cases h4 : c = '"'
  · subst h4; exact .inl (by decide)
  rw [if_neg h4]
  by_cases h5 : c = '\''
  · subst h5; exact .inl (by decide)
  rw [if_neg h5]
  by_cases h6 : c = '\r'
  · subst h6; exact .inl (by decide)
  rw [if_neg h6]
  exact .inr ⟨rfl, by simp [htmlSyntax, h1, h2, h3, h4, h5, h6]⟩

theorem replaceChar_flatMap (c : Char) (r : List Char) (f : Char → List Char) (s : List Char) :
    replaceChar c r (s.flatMap f) = s.flatMap fun x => replaceChar c r (f x) := by
  unfold replaceChar
  rw [List.flatMap_assoc]

theorem replaceChar_eq (c : Char) (r : List Char) (s : List Char) :
    replaceChar c r s = s.flatMap fun x => replaceChar c r [x] := by
  unfold replaceChar
  congr 1
  funext x
  simp

/-- Six replacements one after the other do the same as one pass. -/
theorem escapeHtml_same (s : List Char) : escapeHtmlExport s = escapeHtmlFragment s := by
  unfold escapeHtmlExport escapeHtmlFragment
  rw [replaceChar_eq '&', replaceChar_flatMap, replaceChar_flatMap, replaceChar_flatMap,
    replaceChar_flatMap, replaceChar_flatMap]
  congr 1
  funext x
  unfold htmlCode
  by_cases h1 : x = '&'
  · subst h1; decide
  by_cases h2 : x = '<'
  · subst h2; decide
  by_cases h3 : x = '>'
  · subst h3; decide
  by_cases h4 : x = '"'
  · subst h4; decide
  by_cases h5 : x = '\''
  · subst h5; decide
  by_cases h6 : x = '\r'
  · subst h6; decide
  simp [replaceChar, h1, h2, h3, h4, h5, h6]

/-- HTML export of any text, by either of the two functions, has no active character outside a code and
reads back as the text. -/
theorem C45_html (s : List Char) : htmlSyntax.read (escapeHtmlExport s) = some s ∧
    htmlSyntax.read (escapeHtmlFragment s) = some s := by
  rw [escapeHtml_same]
  have : htmlSyntax.read (escapeHtmlFragment s) = some s :=
    read_escaped (by decide) (by
      have : ∀ p ∈ htmlSyntax.codes, ∃ t, p.1 = '&' :: t := by
        intro p hp
        simp only [htmlSyntax, List.mem_cons, List.not_mem_nil, or_false] at hp
        rcases hp with rfl | rfl | rfl | rfl | rfl | rfl <;> exact ⟨_, rfl⟩
      intro p hp
      obtain ⟨t, ht⟩ := this p hp
      exact ⟨'&', t, ht, by decide⟩) fun c _ => htmlCode_codes c
  exact ⟨this, this⟩

theorem latexCode_codes (c : Char) : (latexCode c, c) ∈ latexSyntax.codes ∨
    (latexCode c = [c] ∧ c ∉ latexSyntax.active) := by
  by_cases h : c ∈ latexSyntax.active
  · have : ∀ c ∈ latexSyntax.active, (latexCode c, c) ∈ latexSyntax.codes := by decide
    exact .inl (this c h)
  · refine .inr ⟨?_, h⟩
    simp only [latexSyntax, List.mem_cons, List.not_mem_nil, or_false, not_or] at h
    simp [latexCode, h]

/-- LaTeX export of any text has no special character outside a command and reads back as the text. -/
theorem C45_latex (s : List Char) : latexSyntax.read (escapeLatex s) = some s := by
  refine read_escaped (by decide) ?_ fun c _ => latexCode_codes c
  intro p hp
  have : ∃ t, p.1 = '\\' :: t := by
    simp only [latexSyntax, List.mem_cons, List.not_mem_nil, or_false] at hp
    rcases hp with rfl | rfl | rfl | rfl | rfl | rfl | rfl | rfl | rfl | rfl <;> exact ⟨_, rfl⟩
  obtain ⟨t, ht⟩ := this
  exact ⟨'\\', t, ht, by decide⟩

/-- Different texts are exported differently. -/
theorem C45_distinct {s t : List Char} :
    (escapeHtmlExport s = escapeHtmlExport t → s = t) ∧
    (escapeHtmlFragment s = escapeHtmlFragment t → s = t) ∧ (escapeLatex s = escapeLatex t → s = t) := by
  refine ⟨fun h => ?_, fun h => ?_, fun h => ?_⟩
  · have := congrArg htmlSyntax.read h
    rw [(C45_html s).1, (C45_html t).1] at this
    exact Option.some.inj this
  · have := congrArg htmlSyntax.read h
    rw [(C45_html s).2, (C45_html t).2] at this
    exact Option.some.inj this
  · have := congrArg latexSyntax.read h
    rw [C45_latex s, C45_latex t] at this
    exact Option.some.inj this

theorem md_read {set s : List Char} (hset : ∀ c ∈ set, c ∈ mdActive)
    (hs : ∀ c ∈ s, c ∈ mdActive → c ∈ set) : markdownSyntax.read (s.flatMap (mdCode set)) = some s := by
  refine read_escaped (by decide) ?_ ?_
  · intro p hp
    obtain ⟨c, _, rfl⟩ := List.mem_map.mp hp
    exact ⟨'\\', [c], rfl, by decide⟩
  · intro c hc
    unfold mdCode
    by_cases h : c ∈ set
    · rw [if_pos h]
      exact .inl (List.mem_map.mpr ⟨c, hset c h, rfl⟩)
    · rw [if_neg h]
      exact .inr ⟨rfl, fun ha => h (hs c hc ha)⟩

/-- Markdown export reads back for texts without backquote, `<` and `&` (document export) or without
`&` (fragment export).  Missing from the full claim: these characters, which the code leaves as they
are, see `C45_markdown_fails`. -/
theorem C45_markdown_partial (s : List Char) (h : '&' ∉ s) :
    markdownSyntax.read (escapeMarkdownFragment s) = some s ∧
    ('`' ∉ s → '<' ∉ s → markdownSyntax.read (escapeMarkdownExport s) = some s) := by
  constructor
  · refine md_read (by decide) fun c hc ha => ?_
    by_cases e : c = '&'
    · subst e; exact absurd hc h
    · have : ∀ c ∈ mdActive, c ≠ '&' → c ∈ mdFragmentSet := by decide
      exact this c ha e
  · intro h2 h3
    refine md_read (by decide) fun c hc ha => ?_
    have : ∀ c ∈ mdActive, c ≠ '&' → c ≠ '`' → c ≠ '<' → c ∈ mdExportSet := by decide
    exact this c ha (fun e => h (e ▸ hc)) (fun e => h2 (e ▸ hc)) (fun e => h3 (e ▸ hc))

/-- Markdown export leaves a code span, an HTML tag and a character reference in the text active. -/
theorem C45_markdown_fails :
    escapeMarkdownExport "`a`".toList = "`a`".toList ∧ escapeMarkdownExport "<b>".toList = "<b\\>".toList ∧
    escapeMarkdownExport "&lt;".toList = "&lt;".toList ∧ escapeMarkdownFragment "&lt;".toList = "&lt;".toList ∧
    markdownSyntax.read (escapeMarkdownExport "`a`".toList) = none ∧
    markdownSyntax.read (escapeMarkdownFragment "&lt;".toList) = none := by decide

example : escapeHtmlExport "a<&>".toList = "a&lt;&amp;&gt;".toList ∧
    escapeLatex "50% {x}".toList = "50\\% \\{x\\}".toList ∧
    escapeMarkdownFragment "*a*".toList = "\\*a\\*".toList := by decide

end Verif
