import Verif.Lemmas.Latex
/- What LaTeX export writes for the paragraphs of a document. -/
namespace Verif

variable {s : Store} {d : Document} {f : Nat} {ps : List SPara} {p : SPara}

theorem shownTex_append (a b : List TexPara) : shownTex (a ++ b) = shownTex a ++ shownTex b := by
  simp [shownTex]

/-- `x`, read where a paragraph may begin and the groups `gs` are open, gives the paragraphs `ps`. -/
def TPart (x : List Char) (gs : List TexGroup) (ps : List TexPara) : Prop :=
  ∃ ts, TTok x ts ∧ ∀ past, ∃ r, TRuns ts ⟨gs, none, false, false, [], past⟩ r ∧ r.groups = gs ∧ r.next = none ∧
    r.newline = false ∧ r.flush.paras = (shownTex ps).reverse ++ past

/-- `x`, read where a paragraph may end, ends it and gives the paragraphs `ps`. -/
def TChunk (x : List Char) (gs : List TexGroup) (ps : List TexPara) : Prop :=
  ∃ ts, TTok x ts ∧ ∀ r : TexReader, r.groups = gs → r.next = none → r.newline = false → ∃ r', TRuns ts r r' ∧
    r'.groups = gs ∧ r'.next = none ∧ r'.newline = false ∧ r'.flush.paras = (shownTex ps).reverse ++ r.flush.paras

theorem TChunk.nil (gs : List TexGroup) : TChunk [] gs [] :=
  ⟨[], TTok.nil, fun r h1 h2 h3 => ⟨r, TRuns.nil r, h1, h2, h3, by simp [shownTex]⟩⟩

theorem TChunk.append {x y : List Char} {gs : List TexGroup} {ps qs : List TexPara} (h : TChunk x gs ps) (k : TChunk y gs qs) :
    TChunk (x ++ y) gs (ps ++ qs) := by
  obtain ⟨ts, h1, h2⟩ := h
  obtain ⟨us, k1, k2⟩ := k
  refine ⟨ts ++ us, h1.append k1, fun r a b c => ?_⟩
  obtain ⟨r1, q1, a1, b1, c1, e1⟩ := h2 r a b c
  obtain ⟨r2, q2, a2, b2, c2, e2⟩ := k2 r1 a1 b1 c1
  refine ⟨r2, q1.append q2, a2, b2, c2, ?_⟩
  rw [e2, e1, shownTex_append]; simp

theorem TPart.nil (gs : List TexGroup) : TPart [] gs [] :=
  ⟨[], TTok.nil, fun past => ⟨_, TRuns.nil _, rfl, rfl, rfl, by simp [shownTex, TexReader.flush]⟩⟩

theorem TPart.chunk {x y : List Char} {gs : List TexGroup} {ps qs : List TexPara} (h : TPart x gs ps) (k : TChunk y gs qs) :
    TPart (x ++ y) gs (ps ++ qs) := by
  obtain ⟨ts, h1, h2⟩ := h
  obtain ⟨us, k1, k2⟩ := k
  refine ⟨ts ++ us, h1.append k1, fun past => ?_⟩
  obtain ⟨r1, q1, a1, b1, c1, e1⟩ := h2 past
  obtain ⟨r2, q2, a2, b2, c2, e2⟩ := k2 r1 a1 b1 c1
  refine ⟨r2, q1.append q2, a2, b2, c2, ?_⟩
  rw [e2, e1, shownTex_append]; simp

/-- A line end. -/
theorem newline_once {r : TexReader} (hg : InText r.groups) (h : r.newline = false) :
    r.step (.char '\n') = some { r with newline := true } := by
  obtain ⟨gs, n, nl, i, cur, past⟩ := r
  simp only at h hg
  subst h
  simp only [TexReader.step, inText_inArg hg]
  rw [if_neg (by decide), if_neg (by simp), if_pos trivial, if_neg (by simp)]

theorem newline_twice {r : TexReader} (hg : InText r.groups) (h : r.newline = true) :
    r.step (.char '\n') = some r.flush := by
  obtain ⟨gs, n, nl, i, cur, past⟩ := r
  simp only at h hg
  subst h
  simp only [TexReader.step, inText_inArg hg]
  rw [if_neg (by decide), if_neg (by simp), if_pos trivial, if_pos trivial]

theorem TPart.after {x : List Char} {gs : List TexGroup} {ps : List TexPara} (hg : InText gs) (h : TPart x gs ps) :
    TChunk ("\n\n".toList ++ x) gs ps := by
  obtain ⟨ts, h1, h2⟩ := h
  have hn : TTok "\n\n".toList [.char '\n', .char '\n'] := TTok.chars "\n\n".toList (by decide)
  refine ⟨[.char '\n', .char '\n'] ++ ts, hn.append h1, fun r a b c => ?_⟩
  obtain ⟨r', q, a', b', c', e'⟩ := h2 r.flush.paras
  have hflush : (TexReader.flush { r with newline := true }) = ⟨gs, none, false, false, [], r.flush.paras⟩ := by
    simp [TexReader.flush, a, b]
  refine ⟨r', ?_, a', b', c', e'⟩
  refine TRuns.cons (newline_once (a ▸ hg) c) (TRuns.cons (b := ⟨gs, none, false, false, [], r.flush.paras⟩) ?_ q)
  rw [newline_twice (r := { r with newline := true }) (a ▸ hg) rfl, hflush]

/-- Parts with empty lines between them. -/
theorem TPart.join {gs : List TexGroup} (hg : InText gs) : ∀ {xs : List (List Char)} {pss : List (List TexPara)},
    xs.length = pss.length → (∀ (i : Nat) x q, xs[i]? = some x → pss[i]? = some q → TPart x gs q) →
    TPart (Store.joinWith "\n\n".toList xs) gs pss.flatten := by
  have rest : ∀ (xs : List (List Char)) (pss : List (List TexPara)), xs.length = pss.length →
      (∀ (i : Nat) x q, xs[i]? = some x → pss[i]? = some q → TPart x gs q) →
      TChunk (xs.flatMap fun x => "\n\n".toList ++ x) gs pss.flatten := by
    intro xs
    induction xs with
    | nil =>
      intro pss hl _
      have : pss = [] := List.length_eq_zero_iff.mp hl.symm
      subst this
      exact TChunk.nil gs
    | cons x xs ih =>
      intro pss hl h
      cases pss with
      | nil => simp at hl
      | cons q pss =>
        rw [List.flatMap_cons, List.flatten_cons]
        exact ((h 0 x q rfl rfl).after hg).append (ih pss (by simpa using hl) fun i y q' h1 h2 => h (i + 1) y q' (by simpa using h1) (by simpa using h2))
  intro xs pss hl h
  cases xs with
  | nil =>
    have : pss = [] := List.length_eq_zero_iff.mp hl.symm
    subst this
    exact TPart.nil gs
  | cons x xs =>
    cases pss with
    | nil => simp at hl
    | cons q pss =>
      rw [Store.joinWith, List.flatten_cons]
      exact (h 0 x q rfl rfl).chunk (rest xs pss (by simpa using hl) fun i y q' h1 h2 => h (i + 1) y q' (by simpa using h1) (by simpa using h2))

/-- A paragraph of text. -/
theorem TInl.part {x : List Char} {gs : List TexGroup} {cs : TexPara} (h : TInl x gs cs) : TPart x gs [cs] := by
  obtain ⟨ts, h1, h2⟩ := h
  refine ⟨ts, h1, fun past => ⟨_, h2 false [] past (by intro e; cases e), rfl, rfl, rfl, ?_⟩⟩
  by_cases h0 : cs = [] <;> simp [TexReader.flush, shownTex, h0]

theorem TPart.fmt {w : String} {g : TexFmt} {x : List Char} {gs : List TexGroup} {ps : List TexPara}
    (hl : texGroups.lookup w.toList = some (.fmt g)) (hc : texChars.lookup w.toList = none)
    (hf : w.toList ≠ [] ∧ (∀ x ∈ w.toList, isTexLetter x = true) ∧ w.toList ≠ "begin".toList)
    (h : TPart x (.fmt g :: gs) ps) : TPart (Store.texCmd w x) gs ps := by
  obtain ⟨o1, o2⟩ := cmd_open hl hc hf
  obtain ⟨ts, h1, h2⟩ := h
  refine ⟨[.word w.toList, .open_] ++ ts ++ [.close], ?_, fun past => ?_⟩
  · have := (o1.append h1).append TTok.close
    simpa [Store.texCmd] using this
  · obtain ⟨⟨gs', n, nl, i, cur, past'⟩, q, a, b, c, e⟩ := h2 past
    simp only at a b c
    subst a; subst b; subst c
    have hr := ((o2 gs false false [] past).append q)
    cases g with
    | heading k =>
      refine ⟨_, hr.append (TRuns.one rfl), rfl, rfl, rfl, ?_⟩
      rw [← e]
      simp [TexReader.flush]
    | _ => exact ⟨_, hr.append (TRuns.one rfl), rfl, rfl, rfl, e⟩

/-- `{\setstretch{v}…}`. -/
theorem TPart.stretch {x v : List Char} {gs : List TexGroup} {ps : List TexPara} (hv : TexSafe v)
    (h : TPart x (.fmt (.stretch v) :: gs) ps) : TPart ('{' :: Store.texCmd "setstretch" v ++ x ++ ['}']) gs ps := by
  obtain ⟨o1, o2⟩ := cmd_open (w := "setstretch") (g := .arg .stretch []) (by decide) (by decide) (by decide)
  obtain ⟨v1, v2⟩ := arg_plain v hv
  obtain ⟨ts, h1, h2⟩ := h
  refine ⟨[.open_] ++ ([.word "setstretch".toList, .open_] ++ v.map .char ++ [.close]) ++ ts ++ [.close], ?_, fun past => ?_⟩
  · have := ((TTok.open_.append ((o1.append v1).append TTok.close)).append h1).append TTok.close
    simpa [Store.texCmd] using this
  · obtain ⟨⟨gs', n, nl, i, cur, past'⟩, q, a, b, c, e⟩ := h2 past
    simp only at a b c
    subst a; subst b; subst c
    have r0 : TRuns [.open_] ⟨gs, none, false, false, [], past⟩ ⟨.plain :: gs, none, false, false, [], past⟩ := TRuns.one rfl
    have r1 := (o2 (.plain :: gs) false false [] past).append (v2 .stretch [] (.plain :: gs) false false [] past)
    have r2 : TRuns [.close] ⟨.arg .stretch ([] ++ v) :: .plain :: gs, none, false, false, [], past⟩
        ⟨.fmt (.stretch v) :: gs, none, false, false, [], past⟩ := TRuns.one rfl
    exact ⟨_, ((r0.append (r1.append r2)).append q).append (TRuns.one rfl), rfl, rfl, rfl, e⟩

/-- `\colorbox{c}{\parbox{\linewidth}{…}}`. -/
theorem TPart.color {x v : List Char} {gs : List TexGroup} {ps : List TexPara} (hv : TexSafe v)
    (h : TPart x (.fmt .box :: .fmt (.color v) :: gs) ps) :
    TPart (Store.texCmd "colorbox" v ++ '{' :: Store.texCmd "parbox" "\\linewidth".toList ++ '{' :: x ++ ['}', '}']) gs ps := by
  obtain ⟨o1, o2⟩ := cmd_open (w := "colorbox") (g := .arg .color []) (by decide) (by decide) (by decide)
  obtain ⟨p1, p2⟩ := cmd_open (w := "parbox") (g := .arg .width []) (by decide) (by decide) (by decide)
  obtain ⟨v1, v2⟩ := arg_plain v hv
  have hlw : TTok ('\\' :: "linewidth".toList ++ ['}']) [.word "linewidth".toList, .close] :=
    TTok.word (by decide) (by decide) (by decide) (by decide) TTok.close
  obtain ⟨ts, h1, h2⟩ := h
  refine ⟨([.word "colorbox".toList, .open_] ++ v.map .char ++ [.close]) ++ [.open_] ++
    ([.word "parbox".toList, .open_] ++ [.word "linewidth".toList, .close]) ++ [.open_] ++ ts ++ ([.close] ++ [.close]), ?_, fun past => ?_⟩
  · have := (((((o1.append v1).append TTok.close).append TTok.open_).append (p1.append hlw)).append TTok.open_).append h1 |>.append
      (TTok.close.append TTok.close)
    simpa [Store.texCmd] using this
  · obtain ⟨⟨gs', n, nl, i, cur, past'⟩, q, a, b, c, e⟩ := h2 past
    simp only at a b c
    subst a; subst b; subst c
    have r1 := (o2 gs false false [] past).append (v2 .color [] gs false false [] past)
    have r2 : TRuns [.close] ⟨.arg .color ([] ++ v) :: gs, none, false, false, [], past⟩
        ⟨gs, some (.fmt (.color v)), false, false, [], past⟩ := TRuns.one rfl
    have r3 : TRuns [.open_] ⟨gs, some (.fmt (.color v)), false, false, [], past⟩
        ⟨.fmt (.color v) :: gs, none, false, false, [], past⟩ := TRuns.one rfl
    have r4 := p2 (.fmt (.color v) :: gs) false false [] past
    have r5 : TRuns [.word "linewidth".toList, .close] ⟨.arg .width [] :: .fmt (.color v) :: gs, none, false, false, [], past⟩
        ⟨.fmt (.color v) :: gs, some (.fmt .box), false, false, [], past⟩ := by
      unfold TRuns; rfl
    have r6 : TRuns [.open_] ⟨.fmt (.color v) :: gs, some (.fmt .box), false, false, [], past⟩
        ⟨.fmt .box :: .fmt (.color v) :: gs, none, false, false, [], past⟩ := TRuns.one rfl
    have r7 : TRuns ([.close] ++ [.close]) ⟨.fmt .box :: .fmt (.color v) :: gs, none, false, i, cur, past'⟩
        ⟨gs, none, false, i, cur, past'⟩ := by
      unfold TRuns; rfl
    exact ⟨_, (((((r1.append r2).append r3).append (r4.append r5)).append r6).append q).append r7, rfl, rfl, rfl, e⟩

/-- A code block. -/
theorem TPart.verb (t : List Char) (h : ¬ verbEnd <:+: t) (gs : List TexGroup) :
    TPart (Store.texEnv "verbatim" t) gs [t.map fun c => (c, { texLook gs with verbatim := true })] := by
  refine ⟨[.verb t], TTok.verb t h, fun past => ⟨_, TRuns.one rfl, rfl, rfl, rfl, ?_⟩⟩
  by_cases h0 : t = [] <;> simp [TexReader.flush, shownTex, h0]

/-! ### The paragraphs of a document -/

theorem Shows.inlineLatex (h : Shows s d ps) (hp : p ∈ ps) (x : Int) (hn : '\n' ∉ p.text) :
    ∃ t, s.inlineLatex (p.entity x) = some t ∧ ∀ gs, InText gs → (texLook gs).marks = {} → TInl t gs (texChs (texLook gs) p.chars) := by
  obtain ⟨segs, h1, h2⟩ := h.blockSegments hp
  have hid : (p.entity x).id = p.id := rfl
  refine ⟨segs.flatMap Store.latexSegment, ?_, fun gs hg hm => TInl.segments hg hm hn h2⟩
  unfold Store.inlineLatex
  rw [hid, h1]; rfl

theorem rawNamed_of_items {segs : List (Segment CharFormat)} {cs : List SChar} {d : CharFormat}
    (h : segItems segs = cs.map fun c => .char c.1 (c.2.getD d)) : Store.rawNamed segs = cs.map Prod.fst := by
  rw [← rawText_of_items h]
  have himg : ∀ g ∈ segs, ∀ i, g ≠ .image i := by
    rintro g hg i rfl
    obtain ⟨a, b, rfl⟩ := List.append_of_mem hg
    have : Item.image i ∈ segItems (a ++ Segment.image i :: b) := by
      rw [segItems_append]; simp [segItems]
    rw [h] at this
    obtain ⟨c, _, hc⟩ := List.mem_map.mp this
    cases hc
  unfold Store.rawText Store.rawNamed
  clear h
  induction segs with
  | nil => rfl
  | cons g segs ih =>
    rw [List.flatMap_cons, List.flatMap_cons, ih fun g' hg' => himg g' (by simp [hg'])]
    cases g with
    | text t f => rfl
    | image i => exact absurd rfl (himg _ (by simp) i)

theorem Shows.codeLatex (h : Shows s d ps) (hp : p ∈ ps) (x : Int) (hc : ¬ verbEnd <:+: p.text) {gs : List TexGroup}
    (hl : texLook gs = {}) :
    ∃ t, s.codeLatex (p.entity x) = some t ∧ t ≠ [] ∧ TPart t gs [p.chars.map fun c => (c.1, { verbatim := true })] := by
  obtain ⟨segs, h1, h2⟩ := h.blockSegments hp
  have hid : (p.entity x).id = p.id := rfl
  unfold Store.codeLatex
  rw [hid, h1]
  simp only [Option.map_some, rawNamed_of_items h2]
  refine ⟨_, rfl, by simp [Store.texEnv, Store.texCmd], ?_⟩
  have := TPart.verb p.text hc gs
  rw [hl] at this
  simpa [SPara.text, Function.comp_def] using this

theorem texLook_fmt (g : TexFmt) (gs : List TexGroup) : texLook (.fmt g :: gs) = g.look (texLook gs) := rfl

/-- A heading or a plain paragraph. -/
theorem Shows.paraLatex {num : Int → List Char} (h : Shows s d ps) (hp : p ∈ ps) (x : Int) (hn : ∀ n, TexSafe (num n))
    (hc : ∀ c, p.shape.fmtBackgroundColor = some c → TexSafe c.toList) (ht : '\n' ∉ p.text) (hcode : ¬ p.shape.fmtIsCodeBlock = some true)
    {gs : List TexGroup} (hg : InText gs) (hl : texLook gs = {}) :
    ∃ t, Store.paraLatex num s (p.entity x) = some t ∧ TPart t gs [texBody num p] := by
  obtain ⟨t, t1, t2⟩ := h.inlineLatex hp x ht
  unfold Store.paraLatex texBody
  rw [t1, if_neg hcode]
  simp only [Option.map_some]
  refine ⟨_, rfl, ?_⟩
  -- the groups around the text, outermost first
  have step : ∀ (w : String) (g : TexFmt) (c : Prop) [Decidable c] (y : List Char) (gs : List TexGroup) (ps : List TexPara),
      texGroups.lookup w.toList = some (.fmt g) → texChars.lookup w.toList = none →
      (w.toList ≠ [] ∧ (∀ x ∈ w.toList, isTexLetter x = true) ∧ w.toList ≠ "begin".toList) →
      TPart y (if c then .fmt g :: gs else gs) ps → TPart (if c then Store.texCmd w y else y) gs ps := by
    intro w g c _ y gs ps a1 a2 a3 hy
    by_cases hcc : c
    · rw [if_pos hcc] at hy ⊢; exact hy.fmt a1 a2 a3
    · rw [if_neg hcc] at hy ⊢; exact hy
  show TPart (if p.shape.fmtNonBreakableLines = some true then _ else _) gs _
  refine step "mbox" .nobreak _ _ _ _ (by decide) (by decide) (by decide) ?_
  -- the colour
  have hcolor : ∀ (y : List Char) (gs : List TexGroup) (qs : List TexPara),
      TPart y (match p.shape.fmtBackgroundColor with | some c => .fmt .box :: .fmt (.color c.toList) :: gs | none => gs) qs →
      TPart (match (p.entity x).fmtBackgroundColor with
        | some c => Store.texCmd "colorbox" c.toList ++ '{' :: Store.texCmd "parbox" "\\linewidth".toList ++ '{' :: y ++ ['}', '}']
        | none => y) gs qs := by
    intro y gs qs hy
    rw [show (p.entity x).fmtBackgroundColor = p.shape.fmtBackgroundColor from rfl]
    cases hb : p.shape.fmtBackgroundColor with
    | none => rw [hb] at hy; exact hy
    | some c => rw [hb] at hy; exact TPart.color (hc c hb) hy
  refine hcolor _ _ _ ?_
  show TPart (if p.shape.fmtDirection = some .rightToLeft then _ else _) _ _
  refine step "RL" .rtl _ _ _ _ (by decide) (by decide) (by decide) ?_
  have hstretch : ∀ (y : List Char) (gs : List TexGroup) (qs : List TexPara),
      TPart y (match p.shape.fmtLineHeight with | some lh => .fmt (.stretch (num lh)) :: gs | none => gs) qs →
      TPart (match (p.entity x).fmtLineHeight with
        | some lh => '{' :: Store.texCmd "setstretch" (num lh) ++ y ++ ['}']
        | none => y) gs qs := by
    intro y gs qs hy
    rw [show (p.entity x).fmtLineHeight = p.shape.fmtLineHeight from rfl]
    cases hb : p.shape.fmtLineHeight with
    | none => rw [hb] at hy; exact hy
    | some c => rw [hb] at hy; exact TPart.stretch (hn c) hy
  refine hstretch _ _ _ ?_
  have hhead : ∀ (gs : List TexGroup), InText gs → (texLook gs).marks = {} →
      TPart (match (p.entity x).fmtHeadingLevel with | some l => Store.texCmd (Store.headingCmd l) t | none => t) gs
        [texChs { texLook gs with heading := match p.shape.fmtHeadingLevel with | some l => some (texLevel l) | none => (texLook gs).heading } p.chars] := by
    intro gs hg hm
    rw [show (p.entity x).fmtHeadingLevel = p.shape.fmtHeadingLevel from rfl]
    cases hb : p.shape.fmtHeadingLevel with
    | none => exact (t2 gs hg hm).part
    | some l =>
      have hlev : ∀ (w : String) (k : Nat), texGroups.lookup w.toList = some (.fmt (.heading k)) → texChars.lookup w.toList = none →
          (w.toList ≠ [] ∧ (∀ x ∈ w.toList, isTexLetter x = true) ∧ w.toList ≠ "begin".toList) →
          TPart (Store.texCmd w t) gs [texChs { texLook gs with heading := some k } p.chars] := by
        intro w k a1 a2 a3
        exact ((t2 (.fmt (.heading k) :: gs) (InText.fmt _ _) hm).part).fmt a1 a2 a3
      simp only [Store.headingCmd, texLevel]
      by_cases h1 : l = 1
      · rw [if_pos h1, if_pos h1]; exact hlev _ _ (by decide) (by decide) (by decide)
      · rw [if_neg h1, if_neg h1]
        by_cases h2 : l = 2
        · rw [if_pos h2, if_pos h2]; exact hlev _ _ (by decide) (by decide) (by decide)
        · rw [if_neg h2, if_neg h2]
          by_cases h3 : l = 3
          · rw [if_pos h3, if_pos h3]; exact hlev _ _ (by decide) (by decide) (by decide)
          · rw [if_neg h3, if_neg h3]; exact hlev _ _ (by decide) (by decide) (by decide)
  -- put together
  have hif : ∀ (c : Prop) [Decidable c] (g : TexFmt) (l : List TexGroup), InText l → InText (if c then .fmt g :: l else l) := by
    intro c _ g l hl
    split
    · exact InText.fmt g l
    · exact hl
  have hlif : ∀ (c : Prop) [Decidable c] (g : TexFmt) (l : List TexGroup),
      texLook (if c then .fmt g :: l else l) = if c then g.look (texLook l) else texLook l := by
    intro c _ g l
    split <;> rfl
  have g1 := hif (p.shape.fmtNonBreakableLines = some true) .nobreak gs hg
  have l1 := hlif (p.shape.fmtNonBreakableLines = some true) .nobreak gs
  generalize (if p.shape.fmtNonBreakableLines = some true then TexGroup.fmt .nobreak :: gs else gs) = gs1 at g1 l1 ⊢
  have g2 : InText (match p.shape.fmtBackgroundColor with | some c => .fmt .box :: .fmt (.color c.toList) :: gs1 | none => gs1) := by
    cases p.shape.fmtBackgroundColor with
    | none => exact g1
    | some c => exact InText.fmt _ _
  have l2 : texLook (match p.shape.fmtBackgroundColor with | some c => .fmt .box :: .fmt (.color c.toList) :: gs1 | none => gs1) =
      { texLook gs1 with color := match p.shape.fmtBackgroundColor with | some c => some c.toList | none => (texLook gs1).color } := by
    cases p.shape.fmtBackgroundColor <;> rfl
  generalize (match p.shape.fmtBackgroundColor with | some c => TexGroup.fmt .box :: .fmt (.color c.toList) :: gs1 | none => gs1) = gs2 at g2 l2 ⊢
  have g3 := hif (p.shape.fmtDirection = some .rightToLeft) .rtl gs2 g2
  have l3 := hlif (p.shape.fmtDirection = some .rightToLeft) .rtl gs2
  generalize (if p.shape.fmtDirection = some .rightToLeft then TexGroup.fmt .rtl :: gs2 else gs2) = gs3 at g3 l3 ⊢
  have g4 : InText (match p.shape.fmtLineHeight with | some lh => .fmt (.stretch (num lh)) :: gs3 | none => gs3) := by
    cases p.shape.fmtLineHeight with
    | none => exact g3
    | some c => exact InText.fmt _ _
  have l4 : texLook (match p.shape.fmtLineHeight with | some lh => .fmt (.stretch (num lh)) :: gs3 | none => gs3) =
      { texLook gs3 with stretch := match p.shape.fmtLineHeight with | some lh => some (num lh) | none => (texLook gs3).stretch } := by
    cases p.shape.fmtLineHeight <;> rfl
  generalize (match p.shape.fmtLineHeight with | some lh => TexGroup.fmt (.stretch (num lh)) :: gs3 | none => gs3) = gs4 at g4 l4 ⊢
  rw [hl] at l1
  have hlook : texLook gs4 = { stretch := p.shape.fmtLineHeight.map num
                               rtl := p.shape.fmtDirection = some .rightToLeft
                               color := p.shape.fmtBackgroundColor.map String.toList
                               nobreak := p.shape.fmtNonBreakableLines = some true } := by
    rw [l4, l3, l2, l1]
    by_cases c1 : p.shape.fmtNonBreakableLines = some true <;> by_cases c2 : p.shape.fmtDirection = some .rightToLeft <;>
      cases p.shape.fmtBackgroundColor <;> cases p.shape.fmtLineHeight <;> simp [c1, c2, TexFmt.look]
  have := hhead gs4 g4 (by rw [hlook])
  rw [hlook] at this
  have e : (match p.shape.fmtHeadingLevel with | some l => some (texLevel l) | none => (none : Option Nat)) =
      p.shape.fmtHeadingLevel.map texLevel := by cases p.shape.fmtHeadingLevel <;> rfl
  simp only [e] at this
  exact this

/-- `\item` and its text. -/
theorem TChunk.item {x : List Char} {gs : List TexGroup} {cs : TexPara} (hg : InText gs) (h : TInl x gs cs)
    (hc : FitsItem true cs) : TChunk ('\n' :: ("\\item ".toList ++ x)) gs [cs] := by
  obtain ⟨ts, h1, h2⟩ := h
  have t1 : TTok ['\n'] [.char '\n'] := TTok.char (by decide)
  have t2 : TTok ('\\' :: "item".toList ++ [' ']) [.word "item".toList, .char ' '] :=
    TTok.word (by decide) (by decide) (by decide) (by decide) (TTok.char (by decide))
  refine ⟨[.char '\n'] ++ ([.word "item".toList, .char ' '] ++ ts), ?_, fun r a b c => ?_⟩
  · have := t1.append (t2.append h1)
    simpa using this
  · have e0 : r.flush.groups = gs := a
    have r0 : TRuns [.char '\n'] r { r with newline := true } := TRuns.one (newline_once (a ▸ hg) c)
    have hw : TexReader.step { r with newline := true } (.word "item".toList) = some ⟨gs, none, false, true, [], r.flush.paras⟩ := by
      simp only [TexReader.step, b]
      have h1 : texChars.lookup "item".toList = none := by decide
      have h2 : texGroups.lookup "item".toList = none := by decide
      rw [h1, h2]
      simp [TexReader.flush, a, b]
    have hs : TexReader.step ⟨gs, none, false, true, [], r.flush.paras⟩ (.char ' ') = some ⟨gs, none, false, true, [], r.flush.paras⟩ := by
      simp only [TexReader.step, inText_inArg hg]
      rw [if_neg (by decide), if_neg (by simp), if_neg (by decide), if_pos (by simp)]
    refine ⟨_, r0.append ((TRuns.cons hw (TRuns.one hs)).append (h2 true [] r.flush.paras hc)), rfl, rfl, rfl, ?_⟩
    by_cases h0 : cs = [] <;> simp [TexReader.flush, shownTex, h0]

theorem joinWith_newline (xs : List (List Char)) (h : xs ≠ []) : '\n' :: Store.joinWith ['\n'] xs = xs.flatMap fun x => '\n' :: x := by
  cases xs with
  | nil => exact absurd rfl h
  | cons x xs => simp [Store.joinWith]

/-- A list. -/
theorem TPart.list {items : List (List Char)} {gs : List TexGroup} {ps : List TexPara} (n : Bool)
    (h : TChunk (items.flatMap fun x => '\n' :: x) (.env (if n then "enumerate" else "itemize").toList :: gs) ps) (hne : items ≠ []) :
    TPart (Store.texEnv (if n then "enumerate" else "itemize") (Store.joinWith ['\n'] items)) gs ps := by
  have hg : ∀ e, InText (.env e :: gs) := fun e _ _ _ h => by cases h
  have hnm : ∃ c, (if n then "enumerate" else "itemize").toList.head? = some c ∧ c ≠ 'v' := by cases n <;> exact ⟨_, rfl, by decide⟩
  have hsafe : TexSafe (if n then "enumerate" else "itemize").toList := by
    cases n
    · show ∀ c ∈ "itemize".toList, _; decide
    · show ∀ c ∈ "enumerate".toList, _; decide
  generalize (if n then "enumerate" else "itemize") = env at *
  obtain ⟨c, hc1, hc2⟩ := hnm
  obtain ⟨a1, a2⟩ := arg_plain env.toList hsafe
  have tb : TTok ("\\begin{".toList ++ (env.toList ++ ['}'])) (.word "begin".toList :: .open_ :: (env.toList.map .char ++ [.close])) :=
    TTok.begin_ (c := c) (a1.append TTok.close) (by rw [List.head?_append, hc1]; rfl) hc2
  obtain ⟨e1, e2⟩ := cmd_open (w := "end") (g := .arg .end_ []) (by decide) (by decide) (by decide)
  have te := (e1.append a1).append TTok.close
  have tn : TTok ['\n'] [.char '\n'] := TTok.char (by decide)
  obtain ⟨ts, h1, h2⟩ := h
  refine ⟨(.word "begin".toList :: .open_ :: (env.toList.map .char ++ [.close])) ++ (ts ++ ([.char '\n'] ++
    ([.word "end".toList, .open_] ++ env.toList.map .char ++ [.close]))), ?_, fun past => ?_⟩
  · have := tb.append (h1.append (tn.append te))
    rw [← joinWith_newline items hne] at this
    simpa [Store.texEnv, Store.texCmd] using this
  · have rb : TRuns (.word "begin".toList :: .open_ :: (env.toList.map .char ++ [.close])) ⟨gs, none, false, false, [], past⟩
        ⟨.env env.toList :: gs, none, false, false, [], past⟩ := by
      refine TRuns.cons (b := ⟨gs, some (.arg .begin_ []), false, false, [], past⟩) rfl
        (TRuns.cons (b := ⟨.arg .begin_ [] :: gs, none, false, false, [], past⟩) rfl ?_)
      refine (a2 .begin_ [] gs false false [] past).append (TRuns.one ?_)
      simp [TexReader.step, TexReader.endArg, TexReader.flush]
    obtain ⟨⟨gs', n', nl, i, cur, past'⟩, q, a, b, c', e⟩ := h2 ⟨.env env.toList :: gs, none, false, false, [], past⟩ rfl rfl rfl
    simp only at a b c'
    subst a; subst b; subst c'
    have rn : TRuns [.char '\n'] ⟨.env env.toList :: gs, none, false, i, cur, past'⟩ ⟨.env env.toList :: gs, none, true, i, cur, past'⟩ :=
      TRuns.one (newline_once (hg _) rfl)
    have re : TRuns ([.word "end".toList, .open_] ++ env.toList.map .char ++ [.close]) ⟨.env env.toList :: gs, none, true, i, cur, past'⟩
        ⟨gs, none, false, false, [], if cur = [] then past' else cur :: past'⟩ := by
      refine ((e2 (.env env.toList :: gs) true i cur past').append (a2 .end_ [] (.env env.toList :: gs) true i cur past')).append
        (TRuns.one ?_)
      simp [TexReader.step, TexReader.endArg, TexReader.flush]
    refine ⟨_, rb.append (q.append (rn.append re)), rfl, rfl, rfl, ?_⟩
    have : (TexReader.flush ⟨.env env.toList :: gs, none, false, false, [], past⟩).paras = past := rfl
    rw [this] at e
    rw [← e]
    simp [TexReader.flush]

theorem exportedTex_reset {num : Int → List Char} {lists : Nat → Option TList} (n : Bool) (qs : List SPara)
    (h : ∀ q, qs.head? = some q → itemOf lists q = none) :
    exportedTex num lists (some n) qs = exportedTex num lists none qs := by
  cases qs with
  | nil => rfl
  | cons q qs => simp only [exportedTex, h q rfl]

/-- The items of a list. -/
theorem Shows.latexItems (h : Shows s d ps) (num : Int → List Char) (n : Bool) {gs : List TexGroup} (hl : texLook gs = {})
    (hfit : ∀ p ∈ ps, TexFit s.lists p) (qs : List SPara) (hq : ∀ q ∈ qs, q ∈ ps) :
    ∃ items rs hps, s.latexItems (qs.map fun q => q.entity (s.storedPos q)) =
        some (items, rs.map fun q => q.entity (s.storedPos q)) ∧
      TChunk (items.flatMap fun x => '\n' :: x) (.env (if n then "enumerate" else "itemize").toList :: gs) hps ∧
      exportedTex num s.lists (some n) qs = hps ++ exportedTex num s.lists none rs ∧
      (∀ q ∈ rs, q ∈ ps) ∧ rs.length ≤ qs.length ∧
      (∀ q, qs.head? = some q → (itemOf s.lists q).isSome → rs.length < qs.length ∧ items ≠ []) := by
  induction qs with
  | nil => exact ⟨[], [], [], rfl, TChunk.nil _, rfl, by simp, by simp, by simp⟩
  | cons q qs ih =>
    have hqp := hq q (by simp)
    have hb := h.blockList hqp (s.storedPos q)
    have hi : (itemOf s.lists q).isSome = (q.shape.list.bind s.lists).isSome := by
      unfold itemOf; rw [Option.isSome_map]
    rw [List.map_cons]
    unfold Store.latexItems
    rw [hb, ← hi]
    by_cases hl' : (itemOf s.lists q).isSome
    · rw [if_pos hl']
      have hnn : '\n' ∉ q.text := (hfit q hqp).text fun e => by rw [e.1] at hl'; cases hl'
      obtain ⟨t, t1, t2⟩ := h.inlineLatex hqp (s.storedPos q) hnn
      obtain ⟨items, rs, hps, i1, i2, i3, i4, i5, _⟩ := ih fun q' hq' => hq q' (by simp [hq'])
      rw [t1, i1]
      have hlk : texLook (.env (if n then "enumerate" else "itemize").toList :: gs) = { item := some n } := by
        rw [show ∀ g l, texLook (g :: l) = g.look (texLook l) from fun _ _ => rfl, hl]
        cases n <;> decide
      have hit : InText (.env (if n then "enumerate" else "itemize").toList :: gs) := by intro _ _ _ e; cases e
      refine ⟨_ :: items, rs, [texChs { item := some n } q.chars] ++ hps, rfl, ?_, ?_, i4, by simp; omega, by
        intro _ _ _; exact ⟨by simp; omega, by simp⟩⟩
      · rw [List.flatMap_cons]
        have k := t2 _ hit (by rw [hlk])
        rw [hlk] at k
        refine TChunk.append (TChunk.item hit k ?_) i2
        intro _ c hc
        have hf := (hfit q hqp).item hl' c.1
        apply hf
        unfold SPara.text
        unfold texChs at hc
        cases hcs : q.chars with
        | nil => rw [hcs] at hc; cases hc
        | cons a as => rw [hcs] at hc; cases hc; rfl
      · obtain ⟨m, hm⟩ := Option.isSome_iff_exists.mp hl'
        simp only [exportedTex, hm, i3]
        rfl
    · rw [if_neg hl']
      refine ⟨[], q :: qs, [], rfl, TChunk.nil _, ?_, hq, by simp, ?_⟩
      · rw [List.nil_append]
        refine exportedTex_reset n _ ?_
        intro q' hq'
        cases hq'
        simpa using hl'
      · intro q' hq' hs
        cases hq'
        exact absurd hs hl'

/-- The paragraphs of a frame. -/
theorem Shows.blocksLatex {num : Int → List Char} (h : Shows s d ps) (hn : ∀ n, TexSafe (num n))
    (hfit : ∀ p ∈ ps, TexFit s.lists p) {gs : List TexGroup} (hg : InText gs) (hl : texLook gs = {}) (fuel : Nat) (qs : List SPara)
    (hq : ∀ q ∈ qs, q ∈ ps) (hf : qs.length ≤ fuel) :
    ∃ (xs : List (List Char)) (pss : List (List TexPara)), Store.blocksLatex num s fuel (qs.map fun q => q.entity (s.storedPos q)) = some xs ∧ xs.length = pss.length ∧
      (∀ (i : Nat) x q, xs[i]? = some x → pss[i]? = some q → TPart x gs q) ∧ pss.flatten = exportedTex num s.lists none qs := by
  induction fuel generalizing qs with
  | zero =>
    have : qs = [] := List.length_eq_zero_iff.mp (by omega)
    subst this
    exact ⟨[], [], rfl, rfl, by simp, rfl⟩
  | succ fuel ih =>
    cases qs with
    | nil => exact ⟨[], [], rfl, rfl, by simp, rfl⟩
    | cons q qs =>
      have hqp := hq q (by simp)
      have hqs : ∀ q' ∈ qs, q' ∈ ps := fun q' hq' => hq q' (by simp [hq'])
      simp only [List.length_cons] at hf
      rw [List.map_cons]
      unfold Store.blocksLatex
      rw [h.blockList hqp]
      have one : ∀ {t : List Char} {a : List TexPara} {xs : List (List Char)} {pss : List (List TexPara)}, TPart t gs a →
          (∀ (i : Nat) x q, xs[i]? = some x → pss[i]? = some q → TPart x gs q) →
          ∀ (i : Nat) x q, (t :: xs)[i]? = some x → (a :: pss)[i]? = some q → TPart x gs q := by
        intro t a xs pss ht hx i x q h1 h2
        cases i with
        | zero =>
          simp only [List.getElem?_cons_zero, Option.some.injEq] at h1 h2
          subst h1; subst h2; exact ht
        | succ i => exact hx i x q (by simpa using h1) (by simpa using h2)
      cases hl' : q.shape.list.bind s.lists with
      | none =>
        have hi : itemOf s.lists q = none := by simp [itemOf, hl']
        simp only
        rw [show (q.entity (s.storedPos q)).fmtIsCodeBlock = q.shape.fmtIsCodeBlock from rfl]
        obtain ⟨xs, pss, u1, u2, u3, u4⟩ := ih qs hqs (by omega)
        by_cases hcode : q.shape.fmtIsCodeBlock = some true
        · rw [if_pos hcode]
          obtain ⟨t, t1, _, t2⟩ := h.codeLatex hqp (s.storedPos q) ((hfit q hqp).code hi hcode) hl
          rw [t1, u1]
          refine ⟨t :: xs, _ :: pss, rfl, by simp [u2], one t2 u3, ?_⟩
          rw [List.flatten_cons, u4]
          simp [exportedTex, texOf, hi, texBody, hcode]
        · rw [if_neg hcode]
          obtain ⟨t, t1, t2⟩ := h.paraLatex hqp (s.storedPos q) hn (hfit q hqp).color ((hfit q hqp).text fun e => hcode e.2) hcode hg hl
          rw [t1, u1]
          refine ⟨t :: xs, _ :: pss, rfl, by simp [u2], one t2 u3, ?_⟩
          rw [List.flatten_cons, u4]
          simp [exportedTex, texOf, hi]
      | some l =>
        have hi : itemOf s.lists q = some (numbered l.style) := by simp [itemOf, hl']
        obtain ⟨items, rs, hps, i1, i2, i3, i4, i5, i6⟩ :=
          h.latexItems num (numbered l.style) hl hfit (q :: qs) hq
        obtain ⟨i6, i7⟩ := i6 q rfl (by rw [hi]; rfl)
        simp only [List.length_cons] at i6
        obtain ⟨xs, pss, u1, u2, u3, u4⟩ := ih rs i4 (by omega)
        simp only [List.map_cons] at i1
        simp only [i1, Option.bind_some, u1, Option.map_some, numbered_eq]
        refine ⟨_, hps :: pss, rfl, by simp [u2], one (TPart.list _ i2 i7) u3, ?_⟩
        rw [List.flatten_cons, u4, ← i3]
        simp only [exportedTex, hi, texOf]

theorem Shows.childrenLatex {num : Int → List Char} (h : Shows s d ps) (hpos : ∀ p ∈ ps, 0 < p.id)
    (cells : List Nat) (own : List Block) (hown : own.Perm (ps.map fun q => q.entity (s.storedPos q)))
    (sub : Nat → Option (List Char)) (qs : List SPara) (hq : ∀ q ∈ qs, q ∈ ps) (acc : List Block) :
    Store.childrenLatex num s cells own sub (qs.map fun p => (p.id : Int)) acc =
      Store.blocksLatex num s (acc ++ qs.map fun q => q.entity (s.storedPos q)).length
        (acc ++ qs.map fun q => q.entity (s.storedPos q)) := by
  have hfind : ∀ q ∈ ps, own.find? (fun b => decide (b.id = q.id)) = some (q.entity (s.storedPos q)) := by
    intro q hq
    cases hf : own.find? (fun b => decide (b.id = q.id)) with
    | none =>
      have hm : q.entity (s.storedPos q) ∈ own := hown.mem_iff.mpr (List.mem_map.mpr ⟨q, hq, rfl⟩)
      have := List.find?_eq_none.mp hf _ hm
      simp [SPara.entity] at this
    | some b =>
      have hm := hown.mem_iff.mp (List.mem_of_find?_eq_some hf)
      obtain ⟨q', hq', rfl⟩ := List.mem_map.mp hm
      have hid := List.find?_some hf
      have hid : q'.id = q.id := of_decide_eq_true hid
      have h1 := h.stored hq
      have h2 := h.stored hq'
      rw [hid, h1] at h2
      exact h2.symm
  induction qs generalizing acc with
  | nil => simp [Store.childrenLatex]
  | cons q qs ih =>
    have h0 := hpos q (hq q (by simp))
    rw [List.map_cons]
    unfold Store.childrenLatex
    rw [if_pos (by omega), show ((q.id : Int)).toNat = q.id by omega, hfind q (hq q (by simp))]
    simp only
    rw [ih fun q' hq' => hq q' (by simp [hq'])]
    simp

/-- The document class and its packages. -/
theorem preamble_runs (c : List Char) (hc : TexSafe c) : ∃ ts, TTok (Store.texCmd "documentclass" (if c = [] then "article".toList else c) ++
    Store.texPackages.flatMap (fun p => '\n' :: Store.texCmd "usepackage" p.toList) ++ '\n' :: Store.texCmd "begin" "document".toList) ts ∧
    TRuns ts ⟨[], none, false, false, [], []⟩ ⟨[.env "document".toList], none, false, false, [], []⟩ := by
  have harg : ∀ (w : String) (u : List Char), texGroups.lookup w.toList = some (.arg .ignored []) → texChars.lookup w.toList = none →
      (w.toList ≠ [] ∧ (∀ x ∈ w.toList, isTexLetter x = true) ∧ w.toList ≠ "begin".toList) → TexSafe u →
      ∃ ts, TTok (Store.texCmd w u) ts ∧ ∀ nl, TRuns ts ⟨[], none, nl, false, [], []⟩ ⟨[], none, nl, false, [], []⟩ := by
    intro w u a1 a2 a3 hu
    obtain ⟨o1, o2⟩ := cmd_open a1 a2 a3
    obtain ⟨v1, v2⟩ := arg_plain u hu
    refine ⟨[.word w.toList, .open_] ++ u.map .char ++ [.close], ?_, fun nl => ?_⟩
    · have := (o1.append v1).append TTok.close
      simpa [Store.texCmd] using this
    · exact ((o2 [] nl false [] []).append (v2 .ignored [] [] nl false [] [])).append (TRuns.one rfl)
  have hcls : TexSafe (if c = [] then "article".toList else c) := by
    split
    · show ∀ c ∈ "article".toList, _; decide
    · exact hc
  obtain ⟨t0, d1, d2⟩ := harg "documentclass" _ (by decide) (by decide) (by decide) hcls
  have hnl : ∀ nl, ∃ nl', TRuns [.char '\n'] ⟨[], none, nl, false, [], []⟩ ⟨[], none, nl', false, [], []⟩ := by
    intro nl
    cases nl
    · exact ⟨true, TRuns.one rfl⟩
    · exact ⟨false, TRuns.one rfl⟩
  have tn : TTok ['\n'] [.char '\n'] := TTok.char (by decide)
  have hpk : ∀ (l : List String), (∀ p ∈ l, TexSafe p.toList) → ∃ ts, TTok (l.flatMap fun p => '\n' :: Store.texCmd "usepackage" p.toList) ts ∧
      ∀ nl, ∃ nl', TRuns ts ⟨[], none, nl, false, [], []⟩ ⟨[], none, nl', false, [], []⟩ := by
    intro l
    induction l with
    | nil => intro _; exact ⟨[], TTok.nil, fun nl => ⟨nl, TRuns.nil _⟩⟩
    | cons p l ih =>
      intro hl
      obtain ⟨us, u1, u2⟩ := ih fun q hq => hl q (by simp [hq])
      obtain ⟨ts, k1, k2⟩ := harg "usepackage" p.toList (by decide) (by decide) (by decide) (hl p (by simp))
      refine ⟨[.char '\n'] ++ ts ++ us, ?_, fun nl => ?_⟩
      · have := (tn.append k1).append u1
        simpa using this
      · obtain ⟨n1, q1⟩ := hnl nl
        obtain ⟨n2, q2⟩ := u2 n1
        exact ⟨n2, (q1.append (k2 n1)).append q2⟩
  obtain ⟨t1, p1, p2⟩ := hpk Store.texPackages (by
    intro p hp
    simp only [Store.texPackages, List.mem_cons, List.not_mem_nil, or_false] at hp
    rcases hp with rfl | rfl | rfl | rfl | rfl <;> unfold TexSafe <;> decide)
  have tb : TTok ("\\begin{".toList ++ ("document".toList ++ ['}'])) _ :=
    TTok.begin_ (c := 'd') ((TTok.chars "document".toList (by decide)).append TTok.close) rfl (by decide)
  obtain ⟨n1, r1⟩ := p2 false
  obtain ⟨n2, r2⟩ := hnl n1
  have r3 : TRuns (.word "begin".toList :: .open_ :: ("document".toList.map .char ++ [.close])) ⟨[], none, n2, false, [], []⟩
      ⟨[.env "document".toList], none, false, false, [], []⟩ := by
    cases n2 <;> (unfold TRuns; rfl)
  refine ⟨_, ?_, ((d2 false).append r1).append (r2.append r3)⟩
  have := (d1.append p1).append (tn.append tb)
  simpa [Store.texCmd] using this

theorem exportedTex_regular {num : Int → List Char} {lists : Nat → Option TList} (o : Option Bool) (ps : List SPara)
    (hadj : ∀ L p q R, ps = L ++ p :: q :: R → ∀ m n, itemOf lists p = some m → itemOf lists q = some n → m = n)
    (ho : ∀ p m n, ps.head? = some p → o = some m → itemOf lists p = some n → m = n) :
    exportedTex num lists o ps = ps.map (texOf num lists) := by
  induction ps generalizing o with
  | nil => rfl
  | cons p ps ih =>
    have ha' : ∀ L p q R, ps = L ++ p :: q :: R → ∀ m n, itemOf lists p = some m → itemOf lists q = some n → m = n :=
      fun L a b R e => hadj (p :: L) a b R (by simp [e])
    have hnext : ∀ m, itemOf lists p = some m → ∀ q k n, ps.head? = some q → some m = some k →
        itemOf lists q = some n → k = n := by
      intro m hm q k n hq hk hn'
      cases hk
      cases ps with
      | nil => cases hq
      | cons x xs =>
        have hxq : x = q := by simpa using hq
        exact hadj [] p x xs rfl m n hm (hxq ▸ hn')
    unfold exportedTex
    split
    · next m n' hi =>
      have := ho p m n' rfl rfl hi
      subst this
      rw [ih _ ha' (hnext m hi)]
      simp [texOf, hi]
    · rw [ih _ ha']
      · rfl
      · intro q m n hq hm hn'
        exact hnext m hm q m n hq rfl hn'

/-- The whole document. -/
theorem Flat.exportLatex {num : Int → List Char} (h : Flat s d f ps) (hn : ∀ n, TexSafe (num n)) (hfit : ∀ p ∈ ps, TexFit s.lists p)
    (cls : Option (List Char)) (hcls : ∀ c, cls = some c → TexSafe c) :
    ∃ t, Store.exportLatex num cls s = some t ∧ readTex t = some (shownTex (exportedTex num s.lists none ps)) := by
  have hcells : s.cellFrameIds d.id = [] := by simp [Store.cellFrameIds, h.docTables]
  obtain ⟨fr, f1, f2, f3, f4⟩ := h.frame
  have hne : ¬ fr.childOrder = [] := by rw [f3]; simp [h.nonempty]
  have hown : (s.getBlocks (s.frameBlocks f)).Perm (ps.map fun q => q.entity (s.storedPos q)) := by
    rw [← h.toShows.getBlocks]
    have : s.frameBlocks f = fr.blocks := by simp [Store.frameBlocks, f1]
    rw [this]
    exact f4.filterMap _
  -- the text of the frame, whatever is around it
  have hbody : ∀ gs, InText gs → texLook gs = {} → ∃ t, Store.frameLatex num s [] (s.frames.keys.length + 1) f = some t ∧
      TPart t gs (exportedTex num s.lists none ps) := by
    intro gs hg hl
    obtain ⟨xs, pss, x1, x2, x3, x4⟩ := h.toShows.blocksLatex hn hfit hg hl ps.length ps (fun q hq => hq) (Nat.le_refl _)
    have hj := TPart.join hg x2 x3
    rw [x4] at hj
    refine ⟨_, ?_, hj⟩
    unfold Store.frameLatex
    rw [f1]
    simp only [(h.plain fr f1).1, (h.plain fr f1).2]
    rw [if_neg hne, f3, h.toShows.childrenLatex h.positive [] _ hown _ ps (fun q hq => hq)]
    simp only [List.nil_append, List.length_map, x1, Option.map_some]
    by_cases h0 : xs = []
    · rw [if_pos h0, h0]; rfl
    · rw [if_neg h0, if_neg (by simp)]
  unfold Store.exportLatex
  rw [h.docId, Option.bind_some]
  simp only [hcells, h.docFrames]
  have hfr : ∀ t : List Char, Store.frameLatex num s [] (s.frames.keys.length + 1) f = some t →
      (mapOpt (Store.frameLatex num s [] (s.frames.keys.length + 1)) ([f].filter fun f => decide (f ∉ ([] : List Nat)))).map
        (fun parts => Store.joinWith "\n\n".toList (parts.filter fun x => decide (x ≠ []))) = some t := by
    intro t ht
    by_cases h0 : t = [] <;> simp [mapOpt, ht, h0, Store.joinWith]
  cases cls with
  | none =>
    obtain ⟨t, t1, ts, t2, t3⟩ := hbody [] (by intro _ _ _ e; cases e) rfl
    obtain ⟨r, q1, q2, q3, q4, q5⟩ := t3 []
    refine ⟨t, hfr t t1, ?_⟩
    unfold readTex
    rw [t2.read, Option.bind_some]
    unfold TRuns at q1
    rw [q1, Option.bind_some, if_pos ⟨q2, q3⟩, q5]
    simp
  | some c =>
    have hg : InText [.env "document".toList] := by intro _ _ _ e; cases e
    obtain ⟨t, t1, t2⟩ := hbody [.env "document".toList] hg (by decide)
    obtain ⟨ts, t2, t3⟩ := t2.after hg
    obtain ⟨us, u1, u2⟩ := preamble_runs c (hcls c rfl)
    obtain ⟨e1, e2⟩ := cmd_open (w := "end") (g := .arg .end_ []) (by decide) (by decide) (by decide)
    have hdoc : TexSafe "document".toList := by unfold TexSafe; decide
    obtain ⟨a1, a2⟩ := arg_plain "document".toList hdoc
    have tn : TTok "\n\n".toList [.char '\n', .char '\n'] := TTok.chars "\n\n".toList (by decide)
    have te := (e1.append a1).append TTok.close
    refine ⟨Store.texCmd "documentclass" (if c = [] then "article".toList else c) ++
        Store.texPackages.flatMap (fun p => '\n' :: Store.texCmd "usepackage" p.toList) ++
        '\n' :: Store.texCmd "begin" "document".toList ++ "\n\n".toList ++ t ++ "\n\n".toList ++ Store.texCmd "end" "document".toList, ?_, ?_⟩
    · have := hfr t t1
      cases hm : mapOpt (Store.frameLatex num s [] (s.frames.keys.length + 1)) ([f].filter fun f => decide (f ∉ ([] : List Nat))) with
      | none => rw [hm] at this; cases this
      | some parts =>
        rw [hm] at this
        simp only [Option.map_some, Option.some.injEq] at this ⊢
        rw [this]
    · have tall := (u1.append t2).append (tn.append te)
      obtain ⟨⟨gs', n', nl, i, cur, past'⟩, q, a, b, c', e⟩ := t3 ⟨[.env "document".toList], none, false, false, [], []⟩ rfl rfl rfl
      simp only at a b c'
      subst a; subst b; subst c'
      have rn : TRuns [.char '\n', .char '\n'] ⟨[.env "document".toList], none, false, i, cur, past'⟩
          ⟨[.env "document".toList], none, false, false, [], if cur = [] then past' else cur :: past'⟩ :=
        TRuns.cons (newline_once hg rfl) (TRuns.one (newline_twice hg rfl))
      have re : TRuns ([.word "end".toList, .open_] ++ "document".toList.map .char ++ [.close])
          ⟨[.env "document".toList], none, false, false, [], if cur = [] then past' else cur :: past'⟩
          ⟨[], none, false, false, [], if cur = [] then past' else cur :: past'⟩ := by
        refine ((e2 _ false false [] _).append (a2 .end_ [] _ false false [] _)).append (TRuns.one rfl)
      have rall := (u2.append q).append (rn.append re)
      unfold readTex
      have hx : Store.texCmd "documentclass" (if c = [] then "article".toList else c) ++
        Store.texPackages.flatMap (fun p => '\n' :: Store.texCmd "usepackage" p.toList) ++
        '\n' :: Store.texCmd "begin" "document".toList ++ "\n\n".toList ++ t ++ "\n\n".toList ++ Store.texCmd "end" "document".toList =
        (Store.texCmd "documentclass" (if c = [] then "article".toList else c) ++
        Store.texPackages.flatMap (fun p => '\n' :: Store.texCmd "usepackage" p.toList) ++
        '\n' :: Store.texCmd "begin" "document".toList) ++ ("\n\n".toList ++ t) ++ ("\n\n".toList ++
        (('\\' :: "end".toList ++ ['{']) ++ "document".toList ++ ['}'])) := by
        simp only [Store.texCmd, List.append_assoc, List.cons_append, List.nil_append]
      rw [hx, tall.read, Option.bind_some]
      unfold TRuns at rall
      rw [rall, Option.bind_some, if_pos ⟨rfl, rfl⟩]
      have : (TexReader.flush ⟨[.env "document".toList], none, false, false, [], []⟩).paras = [] := rfl
      rw [this] at e
      have e' : (if cur = [] then past' else cur :: past') = (shownTex (exportedTex num s.lists none ps)).reverse := by
        simpa [TexReader.flush] using e
      rw [e']
      simp [TexReader.flush]

end Verif
