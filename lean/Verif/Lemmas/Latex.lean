import Verif.Spec.Latex
import Verif.Model.ExportLatex
import Verif.Lemmas.ExportHtml
/- How the reader of LaTeX reads what the exporter writes. -/
namespace Verif

/-! ### Tokens -/

/-- `x` reads as the tokens `ts`, whatever comes after. -/
def TTok (x : List Char) (ts : List TexToken) : Prop :=
  ∀ rest, texTokens .text (x ++ rest) = (texTokens .text rest).map fun us => ts ++ us

theorem TTok.nil : TTok [] [] := by intro rest; simp

theorem TTok.append {x y : List Char} {ts us : List TexToken} (h : TTok x ts) (k : TTok y us) : TTok (x ++ y) (ts ++ us) := by
  intro rest
  rw [List.append_assoc, h, k, Option.map_map]
  congr 1
  funext v; simp

theorem TTok.read {x : List Char} {ts : List TexToken} (h : TTok x ts) : texTokens .text x = some ts := by
  have := h []
  simpa [texTokens] using this

theorem not_verbBegin {c : Char} (h : c ≠ '\\') (s : List Char) : verbBegin.isPrefixOf (c :: s) = false := by
  have : verbBegin = '\\' :: "begin{verbatim}\n".toList := by decide
  rw [this, List.isPrefixOf_cons_cons]
  have : ('\\' == c) = false := by simpa using fun e => h e.symm
  simp [this]

theorem TTok.char {c : Char} (h : c ∉ ['\\', '{', '}']) : TTok [c] [.char c] := by
  simp only [List.mem_cons, List.not_mem_nil, or_false, not_or] at h
  intro rest
  rw [List.singleton_append, texTokens, texStart, not_verbBegin h.1, if_neg (by simp), if_neg h.1, if_neg h.2.1, if_neg h.2.2]

theorem TTok.chars (t : List Char) (h : ∀ c ∈ t, c ∉ ['\\', '{', '}']) : TTok t (t.map .char) := by
  induction t with
  | nil => exact TTok.nil
  | cons c t ih =>
    have := (TTok.char (h c (by simp))).append (ih fun x hx => h x (by simp [hx]))
    simpa using this

theorem TTok.open_ : TTok ['{'] [.open_] := by
  intro rest
  rw [List.singleton_append, texTokens, texStart, not_verbBegin (by decide), if_neg (by simp)]
  rfl

theorem TTok.close : TTok ['}'] [.close] := by
  intro rest
  rw [List.singleton_append, texTokens, texStart, not_verbBegin (by decide), if_neg (by simp)]
  rfl

theorem word_run (w : List Char) (h : ∀ c ∈ w, isTexLetter c = true) (seen rest : List Char) :
    texTokens (.word seen) (w ++ rest) = texTokens (.word (seen ++ w)) rest := by
  induction w generalizing seen with
  | nil => simp
  | cons c w ih =>
    rw [List.cons_append, texTokens, if_pos (h c (by simp)), ih fun x hx => h x (by simp [hx])]
    simp

theorem slash_run (w : List Char) (hne : w ≠ []) (h : ∀ c ∈ w, isTexLetter c = true) (rest : List Char) :
    texTokens .slash (w ++ rest) = texTokens (.word w) rest := by
  cases w with
  | nil => exact absurd rfl hne
  | cons c w =>
    rw [List.cons_append, texTokens, if_pos (h c (by simp)), word_run w fun x hx => h x (by simp [hx])]
    rfl

theorem text_slash {s : List Char} (h : verbBegin.isPrefixOf ('\\' :: s) = false) :
    texTokens .text ('\\' :: s) = texTokens .slash s := by
  rw [texTokens, texStart, h, if_neg (by simp), if_pos rfl]
  simp

/-- A command before a character that is no letter. -/
theorem word_end {w : List Char} {c : Char} (hc : isTexLetter c = false) (rest : List Char) :
    texTokens (.word w) (c :: rest) = (texTokens .text (c :: rest)).map fun ts => .word w :: ts := by
  rw [texTokens.eq_def, texTokens.eq_def .text]
  dsimp only
  rw [if_neg (by simp [hc]), Option.map_map]
  congr 1

theorem takeWhile_stop {P : Char → Bool} {a : List Char} {c : Char} {b : List Char} (ha : ∀ x ∈ a, P x = true) (hc : P c = false) :
    (a ++ c :: b).takeWhile P = a := by
  induction a with
  | nil => simp [hc]
  | cons x a ih => rw [List.cons_append, List.takeWhile_cons_of_pos (ha x (by simp)), ih fun y hy => ha y (by simp [hy])]

/-- A command other than `\begin` with what follows. -/
theorem TTok.word {w : List Char} {c : Char} {ts : List TexToken} (hne : w ≠ []) (h : ∀ x ∈ w, isTexLetter x = true)
    (hb : w ≠ "begin".toList) (hc : isTexLetter c = false) (ht : TTok [c] ts) : TTok ('\\' :: w ++ [c]) (.word w :: ts) := by
  intro rest
  have hp : verbBegin.isPrefixOf ('\\' :: (w ++ c :: rest)) = false := by
    cases hv : verbBegin.isPrefixOf ('\\' :: (w ++ c :: rest)) with
    | false => rfl
    | true =>
      exfalso
      rw [List.isPrefixOf_iff_prefix] at hv
      obtain ⟨u, hu⟩ := hv
      have e : verbBegin = '\\' :: ("begin".toList ++ '{' :: "verbatim}\n".toList) := by decide
      rw [e] at hu
      simp only [List.cons_append, List.append_assoc, List.cons.injEq, true_and] at hu
      have h1 := takeWhile_stop (b := rest) h hc
      rw [← hu, takeWhile_stop (by decide) (by decide)] at h1
      exact hb h1.symm
  have := ht rest
  rw [List.singleton_append] at this
  simp only [List.cons_append, List.append_assoc, List.nil_append]
  rw [text_slash hp, slash_run w hne h, word_end hc, this, Option.map_map]
  congr 1

/-- `\begin{` before anything but verbatim. -/
theorem TTok.begin_ {x : List Char} {ts : List TexToken} {c : Char} (h : TTok x ts) (hx : x.head? = some c) (hc : c ≠ 'v') :
    TTok ("\\begin{".toList ++ x) (.word "begin".toList :: .open_ :: ts) := by
  intro rest
  cases x with
  | nil => cases hx
  | cons d x =>
    cases hx
    have hp : verbBegin.isPrefixOf ('\\' :: ("begin".toList ++ '{' :: (c :: x ++ rest))) = false := by
      cases hv : verbBegin.isPrefixOf ('\\' :: ("begin".toList ++ '{' :: (c :: x ++ rest))) with
      | false => rfl
      | true =>
        exfalso
        rw [List.isPrefixOf_iff_prefix] at hv
        obtain ⟨u, hu⟩ := hv
        have e : verbBegin = '\\' :: ("begin".toList ++ '{' :: 'v' :: "erbatim}\n".toList) := by decide
        rw [e] at hu
        have := congrArg (fun l => l[7]?) hu
        simp at this
        exact hc this.symm
    have e : "\\begin{".toList ++ c :: x ++ rest = '\\' :: ("begin".toList ++ '{' :: (c :: x ++ rest)) := by simp
    rw [e, text_slash hp, slash_run _ (by decide) (by decide), word_end (by decide)]
    have h1 := TTok.open_ (c :: x ++ rest)
    rw [List.singleton_append] at h1
    rw [h1, h rest, Option.map_map, Option.map_map]
    congr 1

theorem skip_run (v : Bool) : ∀ (x : List Char) (n : Nat) (rest : List Char), x.length = n + 1 →
    texTokens (.skip n v) (x ++ rest) = texTokens (if v then .verb [] else .text) rest
  | [], n, rest, h => by simp at h
  | c :: x, 0, rest, h => by
    have : x = [] := by simpa using h
    subst this
    rw [List.singleton_append, texTokens]
  | c :: x, n + 1, rest, h => by
    rw [List.cons_append, texTokens, skip_run v x n rest (by simpa using h)]

theorem verb_run (t rest : List Char) (h : ∀ r : List Char, r ≠ [] → r <:+ t → verbEnd.isPrefixOf (r ++ verbEnd ++ rest) = false)
    (seen : List Char) :
    texTokens (.verb seen) (t ++ verbEnd ++ rest) = (texTokens .text rest).map fun ts => .verb (texDropNewline (seen ++ t)) :: ts := by
  induction t generalizing seen with
  | nil =>
    have e : verbEnd = '\\' :: "end{verbatim}".toList := by decide
    rw [List.nil_append, List.append_nil]
    rw (occs := .pos [1]) [e]
    rw [List.cons_append, texTokens, if_pos (by
      rw [← List.cons_append, ← e, List.isPrefixOf_iff_prefix]; exact List.prefix_append _ _),
      skip_run false "end{verbatim}".toList 12 rest (by decide)]
    simp
  | cons c t ih =>
    have h1 := h (c :: t) (by simp) (List.suffix_refl _)
    simp only [List.cons_append] at h1 ⊢
    rw [texTokens, h1, if_neg (by simp), ih fun r hr hs => h r hr (List.IsSuffix.trans hs (List.suffix_cons c t))]
    simp

/-- A verbatim environment. -/
theorem TTok.verb (t : List Char) (h : ¬ verbEnd <:+: t) : TTok (Store.texEnv "verbatim" t) [.verb t] := by
  intro rest
  have e : Store.texEnv "verbatim" t ++ rest = verbBegin ++ ((t ++ ['\n']) ++ verbEnd ++ rest) := by
    have h1 : Store.texCmd "begin" "verbatim".toList ++ ['\n'] = verbBegin := by decide
    have h2 : Store.texCmd "end" "verbatim".toList = verbEnd := by decide
    rw [← h1, ← h2]
    simp only [Store.texEnv, List.append_assoc, List.cons_append, List.nil_append]
  have e1 : verbBegin = '\\' :: "begin{verbatim}\n".toList := by decide
  rw [e]
  rw (occs := .pos [1]) [e1]
  rw [List.cons_append, texTokens, texStart, if_pos (by
    rw [← List.cons_append, ← e1, List.isPrefixOf_iff_prefix]; exact List.prefix_append _ _)]
  dsimp only
  rw [skip_run true "begin{verbatim}\n".toList 15 _ (by decide), if_pos rfl, verb_run]
  · simp [texDropNewline, Function.comp_def]
  · intro r hr hs
    cases hv : verbEnd.isPrefixOf (r ++ verbEnd ++ rest) with
    | false => rfl
    | true =>
      exfalso
      rw [List.isPrefixOf_iff_prefix, List.append_assoc] at hv
      by_cases hl : verbEnd.length ≤ r.length
      · -- inside the text
        have hpre : verbEnd <+: r := List.prefix_of_prefix_length_le hv (List.prefix_append _ _) hl
        obtain ⟨a, ha⟩ := hs
        obtain ⟨b, hb⟩ := hpre
        -- `r` ends with the line end, which is not in `verbEnd`
        have hb0 : b ≠ [] := by
          intro e0
          rw [e0, List.append_nil] at hb
          rw [← hb] at ha
          have h2 := congrArg List.getLast? ha
          have h3 : verbEnd.getLast? = some '}' := by decide
          simp [List.getLast?_append, h3] at h2
        apply h
        refine ⟨a, b.dropLast, ?_⟩
        have h2 := congrArg List.dropLast ha
        rw [List.dropLast_concat, ← hb, ← List.append_assoc, List.dropLast_append_of_ne_nil hb0] at h2
        exact h2
      · -- across its end
        obtain ⟨u, hu⟩ := hv
        have hlt : r.length < verbEnd.length := Nat.lt_of_not_le hl
        have hk : verbEnd[r.length]? = some '\\' := by
          have h2 := congrArg (fun l => l[r.length]?) hu
          rw [List.getElem?_append_left hlt, List.getElem?_append_right (Nat.le_refl _), Nat.sub_self] at h2
          rw [h2, List.getElem?_append_left (by decide)]
          decide
        have hr0 : 0 < r.length := List.length_pos_iff.mpr hr
        have hr1 : r.length < 14 := by
          have h14 : verbEnd.length = 14 := by decide
          rwa [h14] at hlt
        have : ∀ k, k < 14 → 0 < k → verbEnd[k]? ≠ some '\\' := by decide
        exact this _ hr1 hr0 hk

/-! ### Inside a paragraph -/

/-- The tokens `ts` lead the reader from one state to another. -/
def TRuns (ts : List TexToken) (a b : TexReader) : Prop := ts.foldlM TexReader.step a = some b

theorem TRuns.nil (a : TexReader) : TRuns [] a a := rfl

theorem TRuns.append {ts us : List TexToken} {a b c : TexReader} (h : TRuns ts a b) (k : TRuns us b c) : TRuns (ts ++ us) a c := by
  unfold TRuns at *
  rw [List.foldlM_append, h]
  exact k

theorem TRuns.cons {t : TexToken} {us : List TexToken} {a b c : TexReader} (h : a.step t = some b) (k : TRuns us b c) :
    TRuns (t :: us) a c := by
  unfold TRuns at *
  rw [List.foldlM_cons, h]
  exact k

theorem TRuns.one {t : TexToken} {a b : TexReader} (h : a.step t = some b) : TRuns [t] a b := by
  simp [TRuns, h]

/-- Text is being read. -/
def InText (gs : List TexGroup) : Prop := ∀ k seen gs', gs ≠ .arg k seen :: gs'

theorem emit_text {gs : List TexGroup} (hg : InText gs) {i : Bool} {cur : TexPara} {ps : List TexPara} {c : Char} (h : i = true → c ≠ '[') :
    TexReader.emit ⟨gs, none, false, i, cur, ps⟩ c = some ⟨gs, none, false, false, cur ++ [(c, texLook gs)], ps⟩ := by
  unfold TexReader.emit
  rw [if_neg (by simp)]
  dsimp only
  split
  · rename_i k seen gs' 
    exact absurd rfl (hg k seen gs')
  · rw [if_neg (by rintro ⟨a, b⟩; exact h a b)]
    simp

theorem inText_inArg {gs : List TexGroup} (hg : InText gs) {n : Option TexGroup} {nl i : Bool} {cur : TexPara} {ps : List TexPara} :
    TexReader.inArg ⟨gs, n, nl, i, cur, ps⟩ = false := by
  unfold TexReader.inArg
  dsimp only
  split
  · rename_i k seen gs'
    exact absurd rfl (hg k seen gs')
  · rfl

/-- What a list of characters adds to a paragraph, and when it may follow `\item`. -/
def FitsItem (i : Bool) (cs : TexPara) : Prop := i = true → ∀ c, cs.head? = some c → c.1 ≠ '[' ∧ c.1 ≠ ' '

/-- `x`, read inside a paragraph with the groups `gs` open, adds the characters `cs`. -/
def TInl (x : List Char) (gs : List TexGroup) (cs : TexPara) : Prop :=
  ∃ ts, TTok x ts ∧ ∀ i cur ps, FitsItem i cs →
    TRuns ts ⟨gs, none, false, i, cur, ps⟩ ⟨gs, none, false, i && cs.isEmpty, cur ++ cs, ps⟩

theorem TInl.nil (gs : List TexGroup) : TInl [] gs [] := ⟨[], TTok.nil, fun i cur ps _ => by simp [TRuns]⟩

theorem TInl.append {x y : List Char} {gs : List TexGroup} {cs ds : TexPara} (h : TInl x gs cs) (k : TInl y gs ds) :
    TInl (x ++ y) gs (cs ++ ds) := by
  obtain ⟨ts, h1, h2⟩ := h
  obtain ⟨us, k1, k2⟩ := k
  refine ⟨ts ++ us, h1.append k1, fun i cur ps hi => ?_⟩
  have hf : FitsItem i cs := by
    intro e c hc
    refine hi e c ?_
    rw [List.head?_append, hc]; rfl
  have hf2 : FitsItem (i && cs.isEmpty) ds := by
    intro e c hc
    have e' : i = true ∧ cs = [] := by simpa using e
    refine hi e'.1 c ?_
    rw [e'.2]; exact hc
  have := (h2 i cur ps hf).append (k2 (i && cs.isEmpty) (cur ++ cs) ps hf2)
  have e : (i && cs.isEmpty && ds.isEmpty) = (i && (cs ++ ds).isEmpty) := by
    cases cs <;> simp
  rw [e, List.append_assoc] at this
  exact this

theorem latexCode_chars {c : Char} (h : c ∉ ['\\', '&', '%', '$', '#', '_', '{', '}', '~', '^']) : latexCode c = [c] := by
  simp only [List.mem_cons, List.not_mem_nil, or_false, not_or] at h
  simp [latexCode, h]

theorem step_word_char {w : List Char} {c : Char} {r : TexReader} (h : texChars.lookup w = some c) (hn : r.next = none) :
    r.step (.word w) = r.emit c := by
  simp only [TexReader.step, hn, ne_eq, not_true_eq_false, if_false, h]

/-- An escaped character. -/
theorem TInl.code (c : Char) (hc : c ≠ '\n') {gs : List TexGroup} (hg : InText gs) : TInl (latexCode c) gs [(c, texLook gs)] := by
  have hsym : ∀ c : Char, c ∈ ['&', '%', '$', '#', '_', '{', '}'] → TInl ['\\', c] gs [(c, texLook gs)] := by
    intro c hc
    refine ⟨[.sym c], fun rest => ?_, fun i cur ps hi => ?_⟩
    · have hp : verbBegin.isPrefixOf ('\\' :: c :: rest) = false := by
        have : verbBegin = '\\' :: 'b' :: "egin{verbatim}\n".toList := by decide
        simp only [List.mem_cons, List.not_mem_nil, or_false] at hc
        rw [this, List.isPrefixOf_cons_cons, List.isPrefixOf_cons_cons]
        rcases hc with rfl | rfl | rfl | rfl | rfl | rfl | rfl <;> simp
      have hl : isTexLetter c = false := by
        simp only [List.mem_cons, List.not_mem_nil, or_false] at hc
        rcases hc with rfl | rfl | rfl | rfl | rfl | rfl | rfl <;> decide
      show texTokens .text ('\\' :: c :: rest) = _
      rw [text_slash hp, texTokens, if_neg (by simp [hl])]
      rfl
    · apply TRuns.one
      have hb : i = true → c ≠ '[' := fun e => (hi e _ rfl).1
      simp only [TexReader.step, if_pos hc, emit_text hg hb]
      simp
  have hword : ∀ (w : List Char) (c : Char), w ∈ ["textbackslash".toList, "textasciitilde".toList, "textasciicircum".toList] →
      texChars.lookup w = some c → TInl ('\\' :: w ++ ['{', '}']) gs [(c, texLook gs)] := by
    intro w c hw hl
    have hf : w ≠ [] ∧ (∀ x ∈ w, isTexLetter x = true) ∧ w ≠ "begin".toList := by
      simp only [List.mem_cons, List.not_mem_nil, or_false] at hw
      rcases hw with rfl | rfl | rfl <;> decide
    have ht := (TTok.word hf.1 hf.2.1 hf.2.2 (c := '{') (by decide) TTok.open_).append TTok.close
    refine ⟨[.word w, .open_, .close], by simpa using ht, fun i cur ps hi => ?_⟩
    have hb : i = true → c ≠ '[' := fun e => (hi e _ rfl).1
    refine TRuns.cons (b := ⟨gs, none, false, false, cur ++ [(c, texLook gs)], ps⟩) ?_ ?_
    · rw [step_word_char hl rfl, emit_text hg hb]
    · refine TRuns.cons (b := ⟨.plain :: gs, none, false, false, cur ++ [(c, texLook gs)], ps⟩) rfl ?_
      apply TRuns.one
      simp [TexReader.step]
  by_cases h : c ∈ ['\\', '&', '%', '$', '#', '_', '{', '}', '~', '^']
  · simp only [List.mem_cons, List.not_mem_nil, or_false] at h
    rcases h with rfl | rfl | rfl | rfl | rfl | rfl | rfl | rfl | rfl | rfl
    · exact hword "textbackslash".toList '\\' (by decide) (by decide)
    · exact hsym '&' (by decide)
    · exact hsym '%' (by decide)
    · exact hsym '$' (by decide)
    · exact hsym '#' (by decide)
    · exact hsym '_' (by decide)
    · exact hsym '{' (by decide)
    · exact hsym '}' (by decide)
    · exact hword "textasciitilde".toList '~' (by decide) (by decide)
    · exact hword "textasciicircum".toList '^' (by decide) (by decide)
  · rw [latexCode_chars h]
    have h' := h
    simp only [List.mem_cons, List.not_mem_nil, or_false, not_or] at h'
    refine ⟨[.char c], TTok.char (by simp [h']), fun i cur ps hi => ?_⟩
    apply TRuns.one
    have hact : c ∉ texActive := by simp [texActive, h']
    have hb : i = true → c ≠ '[' ∧ c ≠ ' ' := fun e => hi e _ rfl
    simp only [TexReader.step, if_neg hact, inText_inArg hg, Bool.false_eq_true, if_false, if_neg hc]
    rw [if_neg (by rintro ⟨a, b⟩; exact (hb a).2 b), emit_text hg fun e => (hb e).1]
    simp

theorem TInl.escape (t : List Char) (ht : '\n' ∉ t) {gs : List TexGroup} (hg : InText gs) :
    TInl (escapeLatex t) gs (t.map fun c => (c, texLook gs)) := by
  unfold escapeLatex
  induction t with
  | nil => exact TInl.nil gs
  | cons c t ih =>
    have := (TInl.code c (fun e => ht (by simp [e])) hg).append (ih fun h => ht (by simp [h]))
    simpa using this

/-- An escaped text in an argument. -/
theorem arg_escape (u : List Char) : ∃ ts, TTok (escapeLatex u) ts ∧ ∀ k seen gs nl i cur ps,
    TRuns ts ⟨.arg k seen :: gs, none, nl, i, cur, ps⟩ ⟨.arg k (seen ++ u) :: gs, none, nl, i, cur, ps⟩ := by
  unfold escapeLatex
  induction u with
  | nil => exact ⟨[], TTok.nil, fun _ _ _ _ _ _ _ => by simp [TRuns]⟩
  | cons c u ih =>
    obtain ⟨us, u1, u2⟩ := ih
    have key : ∃ ts, TTok (latexCode c) ts ∧ ∀ k seen gs nl i cur ps,
        TRuns ts ⟨.arg k seen :: gs, none, nl, i, cur, ps⟩ ⟨.arg k (seen ++ [c]) :: gs, none, nl, i, cur, ps⟩ := by
      have hem : ∀ k seen gs nl i cur ps, TexReader.emit ⟨.arg k seen :: gs, none, nl, i, cur, ps⟩ c =
          some ⟨.arg k (seen ++ [c]) :: gs, none, nl, i, cur, ps⟩ := by
        intro k seen gs nl i cur ps
        simp [TexReader.emit]
      by_cases hnl : c = '\n'
      · subst hnl
        refine ⟨[.char '\n'], TTok.char (by decide), fun k seen gs nl i cur ps => ?_⟩
        apply TRuns.one
        simp only [TexReader.step, TexReader.inArg]
        rw [if_neg (by decide), if_pos trivial, hem]
      · obtain ⟨ts, t1, _⟩ := TInl.code c hnl (gs := []) (by intro _ _ _ h; cases h)
        by_cases h : c ∈ ['\\', '&', '%', '$', '#', '_', '{', '}', '~', '^']
        · have hsym : ∀ c' : Char, c' = c → c' ∈ ['&', '%', '$', '#', '_', '{', '}'] → ∃ ts, TTok ['\\', c] ts ∧
              ∀ k seen gs nl i cur ps,
              TRuns ts ⟨.arg k seen :: gs, none, nl, i, cur, ps⟩ ⟨.arg k (seen ++ [c]) :: gs, none, nl, i, cur, ps⟩ := by
            intro c' e hc'
            subst e
            refine ⟨[.sym c'], fun rest => ?_, fun k seen gs nl i cur ps => ?_⟩
            · have hp : verbBegin.isPrefixOf ('\\' :: c' :: rest) = false := by
                have : verbBegin = '\\' :: 'b' :: "egin{verbatim}\n".toList := by decide
                simp only [List.mem_cons, List.not_mem_nil, or_false] at hc'
                rw [this, List.isPrefixOf_cons_cons, List.isPrefixOf_cons_cons]
                rcases hc' with rfl | rfl | rfl | rfl | rfl | rfl | rfl <;> simp
              have hl : isTexLetter c' = false := by
                simp only [List.mem_cons, List.not_mem_nil, or_false] at hc'
                rcases hc' with rfl | rfl | rfl | rfl | rfl | rfl | rfl <;> decide
              show texTokens .text ('\\' :: c' :: rest) = _
              rw [text_slash hp, texTokens, if_neg (by simp [hl])]
              rfl
            · apply TRuns.one
              simp only [TexReader.step, if_pos hc', hem]
          have hword : ∀ (w : List Char), w ∈ ["textbackslash".toList, "textasciitilde".toList, "textasciicircum".toList] →
              texChars.lookup w = some c → ∃ ts, TTok ('\\' :: w ++ ['{', '}']) ts ∧ ∀ k seen gs nl i cur ps,
              TRuns ts ⟨.arg k seen :: gs, none, nl, i, cur, ps⟩ ⟨.arg k (seen ++ [c]) :: gs, none, nl, i, cur, ps⟩ := by
            intro w hw hl
            have hf : w ≠ [] ∧ (∀ x ∈ w, isTexLetter x = true) ∧ w ≠ "begin".toList := by
              simp only [List.mem_cons, List.not_mem_nil, or_false] at hw
              rcases hw with rfl | rfl | rfl <;> decide
            have ht := (TTok.word hf.1 hf.2.1 hf.2.2 (c := '{') (by decide) TTok.open_).append TTok.close
            refine ⟨[.word w, .open_, .close], by simpa using ht, fun k seen gs nl i cur ps => ?_⟩
            refine TRuns.cons (b := ⟨.arg k (seen ++ [c]) :: gs, none, nl, i, cur, ps⟩) ?_ ?_
            · rw [step_word_char hl rfl, hem]
            · exact TRuns.cons (b := ⟨.plain :: .arg k (seen ++ [c]) :: gs, none, nl, i, cur, ps⟩) rfl (TRuns.one rfl)
          simp only [List.mem_cons, List.not_mem_nil, or_false] at h
          rcases h with rfl | rfl | rfl | rfl | rfl | rfl | rfl | rfl | rfl | rfl
          · exact hword "textbackslash".toList (by decide) (by decide)
          · exact hsym _ rfl (by decide)
          · exact hsym _ rfl (by decide)
          · exact hsym _ rfl (by decide)
          · exact hsym _ rfl (by decide)
          · exact hsym _ rfl (by decide)
          · exact hsym _ rfl (by decide)
          · exact hsym _ rfl (by decide)
          · exact hword "textasciitilde".toList (by decide) (by decide)
          · exact hword "textasciicircum".toList (by decide) (by decide)
        · have h' := h
          simp only [List.mem_cons, List.not_mem_nil, or_false, not_or] at h'
          rw [latexCode_chars h]
          refine ⟨[.char c], TTok.char (by simp [h']), fun k seen gs nl i cur ps => ?_⟩
          apply TRuns.one
          simp only [TexReader.step, TexReader.inArg]
          rw [if_neg (by simp [texActive, h']), if_pos trivial, hem]
    obtain ⟨ts, k1, k2⟩ := key
    refine ⟨ts ++ us, by simpa using k1.append u1, fun k seen gs nl i cur ps => ?_⟩
    have := (k2 k seen gs nl i cur ps).append (u2 k (seen ++ [c]) gs nl i cur ps)
    simpa using this

/-- A plain text in an argument. -/
theorem arg_plain (u : List Char) (h : TexSafe u) : TTok u (u.map .char) ∧ ∀ k seen gs nl i cur ps,
    TRuns (u.map .char) ⟨.arg k seen :: gs, none, nl, i, cur, ps⟩ ⟨.arg k (seen ++ u) :: gs, none, nl, i, cur, ps⟩ := by
  constructor
  · refine TTok.chars u fun c hc => ?_
    have := h c hc
    simp only [List.mem_cons, not_or] at this ⊢
    simp [this]
  · induction u with
    | nil => intro _ _ _ _ _ _ _; simp [TRuns]
    | cons c u ih =>
      intro k seen gs nl i cur ps
      have hc := h c (by simp)
      simp only [List.mem_cons, not_or] at hc
      refine TRuns.cons (b := ⟨.arg k (seen ++ [c]) :: gs, none, nl, i, cur, ps⟩) ?_ ?_
      · simp only [TexReader.step, TexReader.inArg]
        rw [if_neg hc.2.2.2.2, if_pos trivial]
        simp [TexReader.emit]
      · have := ih (fun x hx => h x (by simp [hx])) k (seen ++ [c]) gs nl i cur ps
        simpa using this

/-- `\cmd{` opens a group. -/
theorem cmd_open {w : String} {g : TexGroup} (hl : texGroups.lookup w.toList = some g) (hc : texChars.lookup w.toList = none)
    (hf : w.toList ≠ [] ∧ (∀ x ∈ w.toList, isTexLetter x = true) ∧ w.toList ≠ "begin".toList) :
    TTok ('\\' :: w.toList ++ ['{']) [.word w.toList, .open_] ∧ ∀ gs nl i cur ps,
      TRuns [.word w.toList, .open_] ⟨gs, none, nl, i, cur, ps⟩ ⟨g :: gs, none, nl, i, cur, ps⟩ := by
  refine ⟨TTok.word hf.1 hf.2.1 hf.2.2 (c := '{') (by decide) TTok.open_, fun gs nl i cur ps => ?_⟩
  refine TRuns.cons (b := ⟨gs, some g, nl, i, cur, ps⟩) ?_ (TRuns.one rfl)
  simp only [TexReader.step, hc, hl]
  simp

/-- Text inside the braces of a format. -/
theorem TInl.cmd {w : String} {f : TexFmt} {x : List Char} {gs : List TexGroup} {cs : TexPara}
    (hl : texGroups.lookup w.toList = some (.fmt f)) (hc : texChars.lookup w.toList = none)
    (hf : w.toList ≠ [] ∧ (∀ x ∈ w.toList, isTexLetter x = true) ∧ w.toList ≠ "begin".toList)
    (hh : ∀ n, f ≠ .heading n) (h : TInl x (.fmt f :: gs) cs) : TInl (Store.texCmd w x) gs cs := by
  obtain ⟨o1, o2⟩ := cmd_open hl hc hf
  obtain ⟨ts, h1, h2⟩ := h
  refine ⟨[.word w.toList, .open_] ++ ts ++ [.close], ?_, fun i cur ps hi => ?_⟩
  · have := (o1.append h1).append TTok.close
    simpa [Store.texCmd] using this
  · refine ((o2 gs false i cur ps).append (h2 i cur ps hi)).append (TRuns.one ?_)
    cases f <;> first | rfl | exact absurd rfl (hh _)

theorem TInl.link {x : List Char} (u : List Char) {gs : List TexGroup} {cs : TexPara} (h : TInl x (.fmt (.link u) :: gs) cs) :
    TInl (Store.texCmd "href" (escapeLatex u) ++ '{' :: x ++ ['}']) gs cs := by
  obtain ⟨o1, o2⟩ := cmd_open (w := "href") (g := .arg .href []) (by decide) (by decide) (by decide)
  obtain ⟨us, a1, a2⟩ := arg_escape u
  obtain ⟨ts, h1, h2⟩ := h
  refine ⟨[.word "href".toList, .open_] ++ us ++ [.close] ++ [.open_] ++ ts ++ [.close], ?_, fun i cur ps hi => ?_⟩
  · have := ((((o1.append a1).append TTok.close).append TTok.open_).append h1).append TTok.close
    simpa [Store.texCmd] using this
  · have r1 := (o2 gs false i cur ps).append (a2 .href [] gs false i cur ps)
    have r2 : TRuns [.close] ⟨.arg .href ([] ++ u) :: gs, none, false, i, cur, ps⟩ ⟨gs, some (.fmt (.link u)), false, i, cur, ps⟩ :=
      TRuns.one rfl
    have r3 : TRuns [.open_] ⟨gs, some (.fmt (.link u)), false, i, cur, ps⟩ ⟨.fmt (.link u) :: gs, none, false, i, cur, ps⟩ :=
      TRuns.one rfl
    exact (((r1.append r2).append r3).append (h2 i cur ps hi)).append (TRuns.one rfl)

theorem InText.fmt (f : TexFmt) (gs : List TexGroup) : InText (.fmt f :: gs) := by intro _ _ _ h; cases h

theorem tinl_if {c : Prop} [Decidable c] {w : String} {f : TexFmt} {x : List Char} {gs : List TexGroup} {cs : TexPara}
    (hl : texGroups.lookup w.toList = some (.fmt f)) (hc : texChars.lookup w.toList = none)
    (hf : w.toList ≠ [] ∧ (∀ x ∈ w.toList, isTexLetter x = true) ∧ w.toList ≠ "begin".toList)
    (hh : ∀ n, f ≠ .heading n) (h : TInl x (if c then .fmt f :: gs else gs) cs) :
    TInl (if c then Store.texCmd w x else x) gs cs := by
  by_cases hc' : c
  · rw [if_pos hc'] at h ⊢; exact h.cmd hl hc hf hh
  · rw [if_neg hc'] at h ⊢; exact h

/-- The groups opened for a format. -/
def texOpened (f : CharFormat) (gs : List TexGroup) : List TexGroup :=
  let gs := match f.anchorHref with | some u => .fmt (.link u.toList) :: gs | none => gs
  let gs := if f.fontStrikeout = some true then .fmt .strike :: gs else gs
  let gs := if f.fontUnderline = some true then .fmt .underline :: gs else gs
  let gs := if f.fontItalic = some true then .fmt .italic :: gs else gs
  let gs := if f.fontBold = some true then .fmt .bold :: gs else gs
  if f.fontFamily = some "monospace" then .fmt .code :: gs else gs

theorem texOpened_text (f : CharFormat) {gs : List TexGroup} (h : InText gs) : InText (texOpened f gs) := by
  have hif : ∀ (c : Prop) [Decidable c] (g : TexFmt) (l : List TexGroup), InText l → InText (if c then .fmt g :: l else l) := by
    intro c _ g l hl
    split
    · exact InText.fmt g l
    · exact hl
  unfold texOpened
  refine hif _ _ _ (hif _ _ _ (hif _ _ _ (hif _ _ _ (hif _ _ _ ?_))))
  cases f.anchorHref with
  | none => exact h
  | some u => exact InText.fmt _ _

theorem texLook_opened (f : CharFormat) {gs : List TexGroup} (h : (texLook gs).marks = {}) :
    texLook (texOpened f gs) = { texLook gs with marks := htmlMarksOf (some f) } := by
  have hcons : ∀ g l, texLook (g :: l) = g.look (texLook l) := fun _ _ => rfl
  have hif : ∀ (c : Prop) [Decidable c] (g : TexFmt) (l : List TexGroup),
      texLook (if c then .fmt g :: l else l) = if c then g.look (texLook l) else texLook l := by
    intro c _ g l
    split <;> rfl
  have hm : texLook (match f.anchorHref with | some u => .fmt (.link u.toList) :: gs | none => gs) =
      { texLook gs with marks := { link := f.anchorHref.map String.toList } } := by
    cases f.anchorHref with
    | none =>
      show texLook gs = _
      generalize texLook gs = l at h ⊢
      cases l
      simp_all
    | some u =>
      rw [hcons]
      simp [TexGroup.look, TexFmt.look, h]
  unfold texOpened htmlMarksOf
  dsimp only
  rw [hif, hif, hif, hif, hif, hm]
  simp only [Option.getD_some]
  by_cases h1 : f.fontStrikeout = some true <;> by_cases h2 : f.fontUnderline = some true <;>
    by_cases h3 : f.fontItalic = some true <;> by_cases h4 : f.fontBold = some true <;>
    by_cases h5 : f.fontFamily = some "monospace" <;> simp [h1, h2, h3, h4, h5, TexFmt.look]

theorem TInl.marks {x : List Char} {f : CharFormat} {gs : List TexGroup} {cs : TexPara} (h : TInl x (texOpened f gs) cs) :
    TInl (Store.latexMarks f x) gs cs := by
  unfold texOpened at h
  unfold Store.latexMarks
  have k1 := tinl_if (w := "texttt") (by decide) (by decide) (by decide) (by intro n e; cases e) h
  have k2 := tinl_if (w := "textbf") (by decide) (by decide) (by decide) (by intro n e; cases e) k1
  have k3 := tinl_if (w := "textit") (by decide) (by decide) (by decide) (by intro n e; cases e) k2
  have k4 := tinl_if (w := "underline") (by decide) (by decide) (by decide) (by intro n e; cases e) k3
  have k5 := tinl_if (w := "sout") (by decide) (by decide) (by decide) (by intro n e; cases e) k4
  dsimp only
  cases hh : f.anchorHref with
  | none =>
    rw [hh] at k5
    exact k5
  | some u =>
    rw [hh] at k5
    exact TInl.link u.toList k5

/-- The characters of segments without images. -/
theorem TInl.segments {segs : List (Segment CharFormat)} {gs : List TexGroup} (hg : InText gs) (hm : (texLook gs).marks = {}) :
    ∀ {cs : List SChar}, '\n' ∉ cs.map Prod.fst → segItems segs = cs.map (fun c => .char c.1 (c.2.getD {})) →
    TInl (segs.flatMap Store.latexSegment) gs (texChs (texLook gs) cs) := by
  induction segs with
  | nil =>
    intro cs _ h
    have : cs = [] := by cases cs with | nil => rfl | cons c cs => simp [segItems] at h
    subst this
    exact TInl.nil gs
  | cons g segs ih =>
    intro cs hn h
    cases g with
    | image i =>
      cases cs with
      | nil => simp [segItems] at h
      | cons c cs => simp [segItems] at h
    | text t f =>
      have hitems : segItems (Segment.text t f :: segs) = t.map (fun c => .char c f) ++ segItems segs := by
        simp [segItems]
      rw [hitems] at h
      have hlen : t.length ≤ cs.length := by
        have := congrArg List.length h
        simp at this; omega
      have h1 : t.map (fun c => Item.char c f) = (cs.take t.length).map fun c => Item.char c.1 (c.2.getD {}) := by
        have := congrArg (List.take t.length) h
        rw [List.take_left' (by simp), ← List.map_take] at this
        exact this
      have h2 : segItems segs = (cs.drop t.length).map fun c => Item.char c.1 (c.2.getD {}) := by
        have := congrArg (List.drop t.length) h
        rw [List.drop_left' (by simp), ← List.map_drop] at this
        exact this
      have ht : t = (cs.take t.length).map Prod.fst := by
        have := congrArg (List.filterMap fun | Item.char c _ => some c | .image _ => none) h1
        rw [List.filterMap_map, List.filterMap_map] at this
        simpa [Function.comp_def] using this
      have hff : ∀ c ∈ cs.take t.length, c.2.getD {} = f := by
        intro c hc
        have hmem : Item.char c.1 (c.2.getD {}) ∈ t.map fun c => Item.char c f := by
          rw [h1]; exact List.mem_map.mpr ⟨c, hc, rfl⟩
        obtain ⟨c', _, hc'⟩ := List.mem_map.mp hmem
        cases hc'; rfl
      have hn1 : '\n' ∉ t := by
        intro hx; apply hn
        rw [ht] at hx
        obtain ⟨c, hc, e⟩ := List.mem_map.mp hx
        exact List.mem_map.mpr ⟨c, List.mem_of_mem_take hc, e⟩
      have hn2 : '\n' ∉ (cs.drop t.length).map Prod.fst := by
        intro hx; apply hn
        obtain ⟨c, hc, e⟩ := List.mem_map.mp hx
        exact List.mem_map.mpr ⟨c, List.mem_of_mem_drop hc, e⟩
      have r2 := ih hn2 h2
      rw [List.flatMap_cons]
      have hsplit : texChs (texLook gs) cs = texChs (texLook gs) (cs.take t.length) ++ texChs (texLook gs) (cs.drop t.length) := by
        unfold texChs
        rw [← List.map_append, List.take_append_drop]
      rw [hsplit]
      refine TInl.append ?_ r2
      by_cases h0 : t = []
      · simp [Store.latexSegment, h0, texChs]
        exact TInl.nil gs
      · have k := TInl.marks (TInl.escape t hn1 (texOpened_text f hg))
        rw [texLook_opened f hm] at k
        have e : Store.latexSegment (.text t f) = Store.latexMarks f (escapeLatex t) := by simp [Store.latexSegment, h0]
        rw [e]
        have e2 : texChs (texLook gs) (cs.take t.length) = t.map fun c => (c, { texLook gs with marks := htmlMarksOf (some f) }) := by
          unfold texChs
          conv => rhs; rw [ht, List.map_map]
          apply List.map_congr_left
          intro c hc
          have := hff c hc
          simp only [Function.comp, htmlMarksOf, Option.getD_some, this]
        rw [e2]
        exact k

end Verif
