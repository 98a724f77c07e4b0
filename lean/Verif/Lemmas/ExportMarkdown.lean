import Verif.Lemmas.MarkdownRuns
import Verif.Lemmas.Markdown
import Verif.Lemmas.ExportHtml
/- What Markdown export writes for the paragraphs of a document. -/
namespace Verif

/-! ### The runs of a paragraph -/

theorem segEmitText_cases {plain : List Char} {out out' : List (Segment CharFormat)} {a b : Nat} {f : CharFormat}
    (h : segEmitText plain out a b f = some out') : (out' = out ∧ b ≤ a) ∨ ∃ t, t ≠ [] ∧ out' = out ++ [.text t f] := by
  unfold segEmitText at h
  split at h
  · cases h; exact .inl ⟨rfl, by omega⟩
  · rename_i hab
    obtain ⟨t, ht, rfl⟩ := Option.map_eq_some_iff.mp h
    refine .inr ⟨t, ?_, rfl⟩
    rintro rfl
    obtain ⟨x, y, _, _, e⟩ := sliceBytes_eq_some_iff.mp ht
    simp [utf8Len] at e
    omega

theorem TextSegs.concat {segs : List (Segment CharFormat)} (h : TextSegs segs) {t : List Char} {f : CharFormat} (h0 : t ≠ []) :
    TextSegs (segs ++ [.text t f]) := by
  intro g hg
  rcases List.mem_append.mp hg with hg | hg
  · exact h g hg
  · simp at hg; exact ⟨t, f, hg, h0⟩

theorem ApartSegs.concat {segs : List (Segment CharFormat)} (h : ApartSegs segs) {t : List Char} {f : CharFormat}
    (hl : ∀ t' f', segs.getLast? = some (.text t' f') → f' ≠ f ∨ f' = {}) : ApartSegs (segs ++ [.text t f]) := by
  intro L t1 f1 t2 f2 R e
  rcases List.eq_nil_or_concat R with rfl | ⟨R', g, rfl⟩
  · have e' : segs ++ [.text t f] = (L ++ [.text t1 f1]) ++ [.text t2 f2] := by simpa using e
    obtain ⟨e1, e2⟩ := List.append_inj' e' rfl
    cases e2
    exact hl t1 f1 (by rw [e1]; simp)
  · have e' : segs ++ [.text t f] = (L ++ .text t1 f1 :: .text t2 f2 :: R') ++ [g] := by simpa using e
    obtain ⟨e1, e2⟩ := List.append_inj' e' rfl
    exact h L t1 f1 t2 f2 R' e1

theorem last_concat {segs : List (Segment CharFormat)} {t t' : List Char} {f f' : CharFormat}
    (h : (segs ++ [Segment.text t f]).getLast? = some (.text t' f')) : f' = f := by
  simp at h
  exact h.2.symm

theorem segRuns_apart {plain : List Char} : ∀ (runs : List (Run CharFormat)) (out : List (Segment CharFormat)) (cur : Nat)
    (out' : List (Segment CharFormat)) (cur' : Nat) (imgs : List (Img CharFormat)),
    segRuns plain {} runs [] out cur = some (out', cur', imgs) → Ordered runs → Coalesced runs → TextSegs out → ApartSegs out →
    (∀ t f r, out.getLast? = some (.text t f) → runs.head? = some r → f = {} ∨ (r.bs ≤ cur → f ≠ r.fmt)) →
    imgs = [] ∧ TextSegs out' ∧ ApartSegs out'
  | [], out, cur, out', cur', imgs, h, _, _, h1, h2, _ => by
    simp [segRuns] at h
    obtain ⟨rfl, rfl, rfl⟩ := h
    exact ⟨rfl, h1, h2⟩
  | r :: rs, out, cur, out', cur', imgs, h, ho, hc, h1, h2, h3 => by
    unfold segRuns at h
    simp only [segImagesBefore, Option.bind_some] at h
    obtain ⟨out1, e1, h⟩ := Option.bind_eq_some_iff.mp h
    obtain ⟨out2, e2, h⟩ := Option.bind_eq_some_iff.mp h
    have hgap : TextSegs out1 ∧ ApartSegs out1 ∧ ∀ t f, out1.getLast? = some (.text t f) → f = {} ∨ f ≠ r.fmt := by
      split at e1
      · rename_i hlt
        rcases segEmitText_cases e1 with ⟨rfl, hle⟩ | ⟨t, h0, rfl⟩
        · omega
        · refine ⟨h1.concat h0, h2.concat ?_, ?_⟩
          · intro t' f' _
            by_cases hf : f' = {}
            · exact .inr hf
            · exact .inl hf
          · intro t' f' hl
            exact .inl (last_concat hl)
      · rename_i hlt
        cases e1
        refine ⟨h1, h2, ?_⟩
        intro t f hl
        rcases h3 t f r hl rfl with h | h
        · exact .inl h
        · exact .inr (h (by omega))
    obtain ⟨g1, g2, g3⟩ := hgap
    have hr := ho.nonempty r (by simp)
    have hstep : TextSegs out2 ∧ ApartSegs out2 ∧ ∀ t f, out2.getLast? = some (.text t f) → f = r.fmt := by
      rcases segEmitText_cases e2 with ⟨_, hle⟩ | ⟨t, h0, rfl⟩
      · omega
      · refine ⟨g1.concat h0, g2.concat ?_, fun t' f' hl => last_concat hl⟩
        intro t' f' hl
        rcases g3 t' f' hl with h | h
        · exact .inr h
        · exact .inl h
    obtain ⟨k1, k2, k3⟩ := hstep
    have ho' : Ordered rs := ⟨fun r' hr' => ho.nonempty r' (by simp [hr']), (List.pairwise_cons.mp ho.sorted).2⟩
    have hc' : Coalesced rs := by
      cases rs with
      | nil => trivial
      | cons r' rs => exact hc.2
    refine segRuns_apart rs out2 r.be out' cur' imgs h ho' hc' k1 k2 ?_
    intro t f r' hl hr'
    have hf := k3 t f hl
    cases rs with
    | nil => cases hr'
    | cons r2 rs =>
      cases hr'
      refine .inr fun hle hf' => ?_
      have hs := (List.pairwise_cons.mp ho.sorted).1 r' (by simp)
      have hco := hc.1
      exact hco ⟨by omega, by rw [← hf, hf']⟩

theorem view_apart {plain : List Char} {runs : List (Run CharFormat)} {segs : List (Segment CharFormat)} (ho : Ordered runs)
    (hc : Coalesced runs) (h : inlineSegmentsView {} plain runs [] = some segs) : TextSegs segs ∧ ApartSegs segs := by
  unfold inlineSegmentsView at h
  obtain ⟨⟨out1, cur1, imgs1⟩, e1, h⟩ := Option.bind_eq_some_iff.mp h
  obtain ⟨rfl, k1, k2⟩ := segRuns_apart runs [] 0 out1 cur1 imgs1 e1 ho hc (by intro g hg; cases hg)
    (by intro L t f t' f' R e; simp at e) (by intro t f r hl; cases hl)
  simp only [segTailImages, Option.bind_some] at h
  split at h
  · rcases segEmitText_cases h with ⟨rfl, _⟩ | ⟨t, h0, rfl⟩
    · exact ⟨k1, k2⟩
    · refine ⟨k1.concat h0, k2.concat ?_⟩
      intro t' f' _
      by_cases hf : f' = {}
      · exact .inr hf
      · exact .inl hf
  · cases h; exact ⟨k1, k2⟩

variable {s : Store} {d : Document} {f : Nat} {ps : List SPara} {p : SPara}

theorem Shows.segmentsApart (h : Shows s d ps) (hp : p ∈ ps) :
    ∃ segs, s.blockSegments p.id = some segs ∧ segItems segs = p.chars.map (fun c => .char c.1 (c.2.getD {})) ∧
      TextSegs segs ∧ ApartSegs segs := by
  obtain ⟨segs, h1, h2⟩ := (h.formats p hp).segments {}
  obtain ⟨h3, h4⟩ := view_apart (h.formats p hp).wf.ordered (h.formats p hp).wf.coalesced h1
  refine ⟨segs, ?_, h2, h3, h4⟩
  unfold Store.blockSegments Store.segmentsOf Store.runsOf Store.imagesOf
  rw [h.content hp, h.images p hp]
  exact h1

/-! ### What the pieces say -/

/-- A span for every character. -/
def fineSpans (xs : List ParsedSpan) : List ParsedSpan := xs.flatMap fun x => x.text.map fun c => { x with text := [c] }

theorem inlineSpans_append (k : Look) (xs ys : List MdInline) : inlineSpans k (xs ++ ys) = inlineSpans k xs ++ inlineSpans k ys := by
  induction xs with
  | nil => simp [inlineSpans]
  | cons x xs ih => simp [inlineSpans, ih]

theorem noRepeats_append {k : Look} {xs ys : List MdInline} (h1 : NoRepeats k xs) (h2 : NoRepeats k ys) : NoRepeats k (xs ++ ys) := by
  induction xs with
  | nil => exact h2
  | cons x xs ih => exact ⟨h1.1, ih h1.2⟩

theorem base_spans (k : Look) (f : CharFormat) (t : List Char) :
    ∃ xs, inlineSpans k (mdBase f t) = xs.map some ∧ fineSpans xs = (t.map fun c => k.span (mdIsCode f) [c]) ∧ NoRepeats k (mdBase f t) := by
  unfold mdBase
  split
  · rename_i hf
    refine ⟨[k.span true t], by simp [inlineSpans, MdInline.spans], by simp [fineSpans, Look.span, hf], ?_⟩
    exact ⟨trivial, trivial⟩
  · rename_i hf
    have hf : mdIsCode f = false := by simpa using hf
    refine ⟨t.map fun c => k.span false [c], ?_, ?_, ?_⟩
    · induction t with
      | nil => rfl
      | cons c t ih => simp [inlineSpans, MdInline.spans, ih]
    · rw [hf]
      induction t with
      | nil => rfl
      | cons c t ih =>
        unfold fineSpans at ih ⊢
        rw [List.map_cons, List.flatMap_cons, ih]
        rfl
    · induction t with
      | nil => trivial
      | cons c t ih => exact ⟨trivial, ih⟩

theorem as_spans (f : CharFormat) (t : List Char) :
    ∃ xs, inlineSpans {} (mdAs f t) = xs.map some ∧ fineSpans xs = (t.map fun c => (mdLook f).span (mdIsCode f) [c]) ∧
      NoRepeats {} (mdAs f t) := by
  obtain ⟨xs, h1, h2, h3⟩ := base_spans (mdLook f) f t
  refine ⟨xs, ?_, h2, ?_⟩
  · rw [← h1]
    unfold mdAs mdLinkAs mdStarAs mdStruckAs mdStars mdStarred
    cases hl : f.anchorHref <;> cases hs : (mdLook f).strike <;> cases hb : (mdLook f).bold <;> cases hi : (mdLook f).italic <;>
      (have e : (mdLook f).link = f.anchorHref := rfl
       rw [hl] at e
       have : mdLook f = ⟨(mdLook f).bold, (mdLook f).italic, (mdLook f).strike, (mdLook f).link⟩ := rfl
       rw [this, hb, hi, hs, e]
       simp [inlineSpans, MdInline.spans, Look.with])
  · revert h3
    unfold mdAs mdLinkAs mdStarAs mdStruckAs mdStars mdStarred
    cases hl : f.anchorHref <;> cases hs : (mdLook f).strike <;> cases hb : (mdLook f).bold <;> cases hi : (mdLook f).italic <;>
      (have e : (mdLook f).link = f.anchorHref := rfl
       rw [hl] at e
       have : mdLook f = ⟨(mdLook f).bold, (mdLook f).italic, (mdLook f).strike, (mdLook f).link⟩ := rfl
       rw [this, hb, hi, hs, e]
       simp [NoRepeats, MdInline.NoRepeat, Look.with, Look.lacks])

theorem segs_spans : ∀ (segs : List (Segment CharFormat)), 
    ∃ xs, inlineSpans {} (segsAs segs) = xs.map some ∧ fineSpans xs = (segs.flatMap segChs).map mdSpan ∧ NoRepeats {} (segsAs segs)
  | [] => ⟨[], rfl, rfl, trivial⟩
  | g :: segs => by
    obtain ⟨xs, h1, h2, h3⟩ := segs_spans segs
    cases g with
    | image i => exact ⟨xs, h1, h2, h3⟩
    | text t f =>
      obtain ⟨ys, k1, k2, k3⟩ := as_spans f t
      have e : segsAs (.text t f :: segs) = mdAs f t ++ segsAs segs := by
        unfold segsAs; rw [List.flatMap_cons]
      refine ⟨ys ++ xs, ?_, ?_, ?_⟩
      · rw [e, inlineSpans_append, h1, k1, List.map_append]
      · rw [List.flatMap_cons, List.map_append, ← h2]
        unfold fineSpans at k2 ⊢
        rw [List.flatMap_append, k2]
        congr 1
        simp [segChs, mdSpan, Function.comp_def]
      · rw [e]; exact noRepeats_append k3 h3

/-- The characters of the runs are the characters of the paragraph. -/
theorem segs_chars {segs : List (Segment CharFormat)} {cs : List SChar} (ht : TextSegs segs)
    (h : segItems segs = cs.map fun c => .char c.1 (c.2.getD {})) : segs.flatMap segChs = cs.map fun c => (c.1, some (c.2.getD {})) := by
  have : segItems segs = (segs.flatMap segChs).map fun c => .char c.1 (c.2.getD {}) := by
    clear h
    induction segs with
    | nil => rfl
    | cons g segs ih =>
      obtain ⟨t, f, rfl, _⟩ := ht g (by simp)
      rw [show segItems (Segment.text t f :: segs) = segItems [.text t f] ++ segItems segs by simp [segItems], ih fun g' hg' => ht g' (by simp [hg']), List.flatMap_cons, List.map_append]
      congr 1
      simp [segItems, segChs, Function.comp_def]
  rw [h] at this
  have hsome : ∀ c ∈ segs.flatMap segChs, c = (c.1, some (c.2.getD {})) := by
    intro c hc
    obtain ⟨g, hg, hc⟩ := List.mem_flatMap.mp hc
    obtain ⟨t, f, rfl, _⟩ := ht g hg
    obtain ⟨x, _, rfl⟩ := List.mem_map.mp hc
    rfl
  generalize segs.flatMap segChs = zs at this hsome
  clear h
  induction cs generalizing zs with
  | nil =>
    cases zs with
    | nil => rfl
    | cons z zs => simp at this
  | cons c cs ih =>
    cases zs with
    | nil => simp at this
    | cons z zs =>
      simp only [List.map_cons, List.cons.injEq, Item.char.injEq] at this
      rw [List.map_cons, ← ih zs this.2 fun x hx => hsome x (by simp [hx])]
      congr 1
      rw [hsome z (by simp)]
      rw [this.1.1, this.1.2]

theorem mdMarks_edges (f : CharFormat) (t : List Char) (h0 : t ≠ []) :
    (∀ c, t.head? = some c → isWhite c = false → HeadOk (Store.mdSegment (.text t f))) ∧
    (∀ c, t.getLast? = some c → isWhite c = false → LastOk (Store.mdSegment (.text t f))) := by
  rw [mdSegment_text f h0, mdMarks_eq]
  have key : (∀ c, t.head? = some c → isWhite c = false → HeadOk (mdStarText f (mdStruck f (mdBaseText f t)))) ∧
    (∀ c, t.getLast? = some c → isWhite c = false → LastOk (mdStarText f (mdStruck f (mdBaseText f t)))) := by
    unfold mdStarText
    cases hs : mdStars f with
    | succ n =>
      refine ⟨fun _ _ _ => ⟨'*', by simp [List.replicate_succ], by decide⟩, fun _ _ _ => ⟨'*', ?_, by decide⟩⟩
      rw [List.getLast?_append, List.getLast?_replicate]
      rfl
    | zero =>
      simp only [List.replicate_zero, List.nil_append, List.append_nil]
      constructor
      · intro c hc hw
        cases t with
        | nil => exact absurd rfl h0
        | cons a t =>
          cases hc
          have := (baseText_head (f := f) (t := t) hw).1
          unfold mdStruck
          split
          · exact ⟨'~', rfl, by decide⟩
          · exact this
      · intro c hc hw
        have := (baseText_last (f := f) hc hw).1
        unfold mdStruck
        split
        · exact ⟨'~', by rw [List.getLast?_append]; rfl, by decide⟩
        · exact this
  cases f.anchorHref with
  | none => exact key
  | some u => exact ⟨fun _ _ _ => ⟨'[', rfl, by decide⟩, fun _ _ _ => ⟨')', by rw [List.getLast?_append]; rfl, by decide⟩⟩

theorem mem_mdMarks {f : CharFormat} {t : List Char} {c : Char}
    (h : c ∈ Store.mdMarks f (if f.fontFamily = some "monospace" then t else escapeMarkdownExport t)) :
    c ∈ ['`', '~', '*', '[', ']', '(', ')', '\\'] ∨ c ∈ t ∨ ∃ u, f.anchorHref = some u ∧ c ∈ u.toList := by
  have hb : c ∈ mdBaseText f t → c ∈ ['`', '~', '*', '[', ']', '(', ')', '\\'] ∨ c ∈ t := by
    intro h
    unfold mdBaseText at h
    split at h
    · simp at h
      rcases h with h | h | h
      · exact .inl (by simp [h])
      · exact .inr h
      · exact .inl (by simp [h])
    · unfold escapeMarkdownExport mdCode at h
      obtain ⟨a, ha, h⟩ := List.mem_flatMap.mp h
      split at h
      · simp at h
        rcases h with h | h
        · exact .inl (by simp [h])
        · exact .inr (h ▸ ha)
      · simp at h
        exact .inr (h ▸ ha)
  have hst : c ∈ mdStarText f (mdStruck f (mdBaseText f t)) → c ∈ ['`', '~', '*', '[', ']', '(', ')', '\\'] ∨ c ∈ t := by
    intro h
    unfold mdStarText mdStruck at h
    simp only [List.mem_append, List.mem_replicate] at h
    rcases h with (h | h) | h
    · exact .inl (by simp [h.2])
    · split at h
      · simp only [List.mem_append] at h
        rcases h with (h | h) | h
        · exact .inl (by simp at h; simp [h])
        · exact hb h
        · exact .inl (by simp at h; simp [h])
      · exact hb h
    · exact .inl (by simp [h.2])
  rw [mdMarks_eq] at h
  cases hl : f.anchorHref with
  | none =>
    rw [hl] at h
    rcases hst h with h | h
    · exact .inl h
    · exact .inr (.inl h)
  | some u =>
    rw [hl] at h
    simp only [List.mem_append, List.mem_cons, List.not_mem_nil, or_false] at h
    rcases h with (((h | h) | h) | h) | h
    · exact .inl (by simp [h])
    · rcases hst h with h | h
      · exact .inl h
      · exact .inr (.inl h)
    · exact .inl (by simp at h; rcases h with h | h <;> simp [h])
    · exact .inr (.inr ⟨u, rfl, h⟩)
    · exact .inl (by simp [h])

/-- The line of a paragraph. -/
theorem Shows.inlineMarkdown (h : Shows s d ps) (hp : p ∈ ps) (x : Int) (hl : MdLine p.chars) :
    ∃ t q, s.inlineMarkdown (p.entity x) = some t ∧ MdReads none t q ∧
      (p.chars = [] → t = []) ∧ (p.chars ≠ [] → HeadOk t ∧ LastOk t) ∧ '\n' ∉ t ∧
      ∃ xs, inlineSpans {} q = xs.map some ∧ fineSpans xs = p.chars.map mdSpan ∧ NoRepeats {} q := by
  obtain ⟨segs, h1, h2, h3, h4⟩ := h.segmentsApart hp
  have hcs := segs_chars h3 h2
  have hid : (p.entity x).id = p.id := rfl
  have hmap : ∀ L a e R, p.chars.map (fun c => ((c.1, some (c.2.getD {})) : SChar)) = L ++ a :: e :: R →
      ∃ L' a' e' R', p.chars = L' ++ a' :: e' :: R' ∧ a = (a'.1, some (a'.2.getD {})) ∧ e = (e'.1, some (e'.2.getD {})) := by
    intro L a e R he
    obtain ⟨L', M, e1, e2, e3⟩ := List.map_eq_append_iff.mp he
    obtain ⟨a', M', rfl, e4, e5⟩ := List.map_eq_cons_iff.mp e3
    obtain ⟨e', R', rfl, e6, e7⟩ := List.map_eq_cons_iff.mp e5
    exact ⟨L', a', e', R', e1, e4.symm, e6.symm⟩
  have hch : ∀ c ∈ segs.flatMap segChs, mdChar c := by
    intro c hc
    rw [hcs] at hc
    obtain ⟨c', hc', rfl⟩ := List.mem_map.mp hc
    exact hl.chars c' hc'
  have hhd : ∀ c, (segs.flatMap segChs).head? = some c → isWhite c.1 = false := by
    intro c hc
    rw [hcs, List.head?_map] at hc
    obtain ⟨c', hc', rfl⟩ := Option.map_eq_some_iff.mp hc
    exact hl.head c' hc'
  have hla : ∀ c, (segs.flatMap segChs).getLast? = some c → isWhite c.1 = false := by
    intro c hc
    rw [hcs, List.getLast?_map] at hc
    obtain ⟨c', hc', rfl⟩ := Option.map_eq_some_iff.mp hc
    exact hl.last c' hc'
  refine ⟨segs.flatMap Store.mdSegment, segsAs segs, ?_, ?_, ?_, ?_, ?_, ?_⟩
  · unfold Store.inlineMarkdown
    rw [hid, h1]; rfl
  · refine segs_read segs none none h3 h4 hch ?_ (fun _ => rfl) (fun _ => hhd) hla (by intro _ _ _ _ _ a ha; cases ha)
    intro L a e R he
    rw [Option.toList_none, List.nil_append, hcs] at he
    obtain ⟨L', a', e', R', k1, rfl, rfl⟩ := hmap L a e R he
    exact hl.pairs L' a' e' R' k1
  · intro h0
    cases segs with
    | nil => rfl
    | cons g segs =>
      obtain ⟨t, f, rfl, ht⟩ := h3 g (by simp)
      rw [h0, List.flatMap_cons] at hcs
      simp [segChs] at hcs
      exact absurd hcs.1 ht
  · intro h0
    constructor
    · cases segs with
      | nil => simp at hcs; exact absurd hcs h0
      | cons g segs =>
        obtain ⟨t, f, rfl, ht⟩ := h3 g (by simp)
        cases t with
        | nil => exact absurd rfl ht
        | cons c t =>
          obtain ⟨e, he, hw⟩ := (mdMarks_edges f (c :: t) ht).1 c rfl (hhd (c, some f) (by rw [List.flatMap_cons]; rfl))
          exact ⟨e, by rw [List.flatMap_cons, List.head?_append, he]; rfl, hw⟩
    · rcases List.eq_nil_or_concat segs with rfl | ⟨segs', g, rfl⟩
      · simp at hcs; exact absurd hcs h0
      · obtain ⟨t, f, rfl, ht⟩ := h3 g (by simp)
        obtain ⟨c, hc⟩ : ∃ c, t.getLast? = some c := by
          cases h' : t.getLast? with
          | none => simp at h'; exact absurd h' ht
          | some e => exact ⟨e, rfl⟩
        obtain ⟨e, he, hw⟩ := (mdMarks_edges f t ht).2 c hc (hla (c, some f) (by
          rw [List.concat_eq_append, List.flatMap_append, List.getLast?_append]
          simp [segChs, hc]))
        refine ⟨e, ?_, hw⟩
        rw [List.concat_eq_append, List.flatMap_append, List.getLast?_append]
        simp [he]
  · intro hn
    obtain ⟨g, hg, hn⟩ := List.mem_flatMap.mp hn
    obtain ⟨t, f, rfl, ht⟩ := h3 g hg
    rw [mdSegment_text f ht] at hn
    have hm : ∀ c ∈ t, mdChar (c, some f) := fun c hc =>
      hch _ (List.mem_flatMap.mpr ⟨_, hg, List.mem_map.mpr ⟨c, hc, rfl⟩⟩)
    rcases mem_mdMarks hn with h | h | ⟨u, hu, h⟩
    · revert h; decide
    · exact (hm _ h).2.1 (show '\n' ∈ mdControl by decide)
    · cases t with
      | nil => exact ht rfl
      | cons c t =>
        have := List.all_eq_true.mp ((hm c (by simp)).2.2 u hu) _ h
        revert this; decide
  · obtain ⟨xs, k1, k2, k3⟩ := segs_spans segs
    refine ⟨xs, k1, ?_, k3⟩
    rw [k2, hcs, List.map_map]
    rfl

/-! ### Lines and blocks -/

theorem mdText_of {t : List Char} {q : List MdInline} (h : MdReads none t q) (h1 : HeadOk t) (h2 : LastOk t) : mdText t = some q := by
  obtain ⟨c, e1, w1⟩ := h1
  obtain ⟨e, e2, w2⟩ := h2
  unfold mdText
  rw [e1, e2]
  simp [w1, w2]
  exact h

theorem not_special {b : Option Char} {c : Char} {x : List Char} {q : List MdInline} (h : MdReads b (c :: x) q)
    (hc : c ∈ ['#', '-', '.']) : False := by
  unfold MdReads mdInline at h
  simp only [List.mem_cons, List.not_mem_nil, or_false] at hc
  rcases hc with rfl | rfl | rfl <;>
    (rw [if_neg (by decide), if_neg (by decide), if_neg (by decide), if_neg (by decide), if_neg (by decide), if_pos (by decide)] at h; cases h)

theorem not_fence {b : Option Char} {x : List Char} {q : List MdInline} (h : MdReads b ('`' :: '`' :: x) q) : False := by
  unfold MdReads mdInline at h
  rw [if_neg (by decide), if_pos rfl] at h
  simp at h

theorem not_number : ∀ {ds : List Char} {b : Option Char} {x : List Char} {q : List MdInline}, (∀ c ∈ ds, c.isDigit = true) →
    MdReads b (ds ++ '.' :: x) q → False
  | [], _, _, _, _, h => not_special h (by decide)
  | c :: ds, b, x, q, hd, h => by
    have hc := hd c (by simp)
    have hn : c ∉ mdSpecial ∧ c ∉ mdControl ∧ c ≠ '<' ∧ c ≠ '&' := by
      refine ⟨fun hm => ?_, fun hm => ?_, ?_, ?_⟩
      · simp only [mdSpecial, List.mem_cons, List.not_mem_nil, or_false] at hm
        rcases hm with rfl | rfl | rfl | rfl | rfl | rfl | rfl | rfl | rfl | rfl | rfl | rfl | rfl | rfl | rfl | rfl | rfl | rfl <;> revert hc <;> decide
      · simp only [mdControl, List.mem_cons, List.not_mem_nil, or_false] at hm
        rcases hm with rfl | rfl | rfl <;> revert hc <;> decide
      · rintro rfl; revert hc; decide
      · rintro rfl; revert hc; decide
    have hne : ∀ d, d ∈ mdSpecial → c ≠ d := fun d hd e => hn.1 (e ▸ hd)
    unfold MdReads at h
    rw [List.cons_append] at h
    unfold mdInline at h
    rw [if_neg (hne _ (by decide)), if_neg (hne _ (by decide)), if_neg (hne _ (by decide)), if_neg (hne _ (by decide)),
      if_neg (hne _ (by decide)), if_neg (by simp [hn.1, hn.2.1]), if_neg (by simp [hn.2.2.1, hn.2.2.2])] at h
    obtain ⟨r, hr, _⟩ := Option.map_eq_some_iff.mp h
    exact not_number (fun c' hc' => hd c' (by simp [hc'])) (MdReads.of hr)

/-- A line of text is a paragraph. -/
theorem para_line {t : List Char} {q : List MdInline} (h : MdReads none t q) (h1 : HeadOk t) (h2 : LastOk t) :
    mdLineBlock t = some (.para q) ∧ t ≠ [] ∧ "```".toList.isPrefixOf t = false := by
  obtain ⟨c, e, w⟩ := h1
  obtain ⟨x, rfl⟩ : ∃ x, t = c :: x := by
    cases t with
    | nil => cases e
    | cons a x => cases e; exact ⟨x, rfl⟩
  refine ⟨?_, by simp, ?_⟩
  · have hh : (c :: x).takeWhile (fun a => decide (a = '#')) = [] := by
      rw [List.takeWhile_cons_of_neg]
      intro e
      have e : c = '#' := by simpa using e
      exact not_special (c := c) h (by rw [e]; decide)
    unfold mdLineBlock
    simp only [hh]
    rw [if_neg (by simp), if_neg, if_neg, mdText_of h ⟨c, rfl, w⟩ h2]
    · rfl
    · rintro ⟨_, hpre⟩
      have hsplit : c :: x = (c :: x).takeWhile Char.isDigit ++ (c :: x).drop ((c :: x).takeWhile Char.isDigit).length := by
        have : (c :: x).takeWhile Char.isDigit = (c :: x).take ((c :: x).takeWhile Char.isDigit).length :=
          (List.prefix_iff_eq_take.mp (List.takeWhile_prefix _))
        conv => lhs; rw [← List.take_append_drop ((c :: x).takeWhile Char.isDigit).length (c :: x), ← this]
      obtain ⟨y, hy⟩ := List.isPrefixOf_iff_prefix.mp hpre
      rw [← hy] at hsplit
      have hd : ∀ a ∈ (c :: x).takeWhile Char.isDigit, a.isDigit = true := by
        intro a ha
        exact (List.all_takeWhile (l := c :: x) (p := Char.isDigit)) |> fun h => List.all_eq_true.mp h a ha
      rw [hsplit] at h
      exact not_number hd h
    · intro hpre
      obtain ⟨y, hy⟩ := List.isPrefixOf_iff_prefix.mp hpre
      have : c = '-' := by
        have := congrArg List.head? hy
        simpa using this.symm
      exact not_special (c := c) h (by rw [this]; decide)
  · cases hp : "```".toList.isPrefixOf (c :: x) with
    | false => rfl
    | true =>
      exfalso
      obtain ⟨y, hy⟩ := List.isPrefixOf_iff_prefix.mp hp
      rw [← hy] at h
      exact not_fence h

/-- A line that is read as a block. -/
theorem item_line {o : Bool} {n : Nat} {t : List Char} {q : List MdInline} (h : MdReads none t q) (h1 : HeadOk t) (h2 : LastOk t)
    (hn : n < 10 ^ 9) :
    mdLineBlock ((if o then (toString n).toList ++ ". ".toList else "- ".toList) ++ t) = some (.list o [.loose q []]) := by
  cases o with
  | false =>
    unfold mdLineBlock
    have e : (if false = true then (toString n).toList ++ ". ".toList else "- ".toList) ++ t = '-' :: ' ' :: t := rfl
    rw [e]
    have h0 : ('-' :: ' ' :: t).takeWhile (fun a => decide (a = '#')) = [] := rfl
    simp only [h0]
    rw [if_neg (by simp), if_pos (by rfl)]
    rw [show ('-' :: ' ' :: t).drop 2 = t from rfl, mdText_of h h1 h2]
    rfl
  | true =>
    have e : (if true = true then (toString n).toList ++ ". ".toList else "- ".toList) ++ t = Nat.toDigits 10 n ++ '.' :: ' ' :: t := by
      rw [if_pos rfl, Nat.toString_eq_repr, Nat.toList_repr]
      simp
    rw [e]
    have hd : ∀ c ∈ Nat.toDigits 10 n, c.isDigit = true := fun c hc => Nat.isDigit_of_mem_toDigits (by omega) (by omega) hc
    have hlen : (Nat.toDigits 10 n).length ≤ 9 := (Nat.length_toDigits_le_iff (by omega) (by omega)).mpr hn
    have hne : Nat.toDigits 10 n ≠ [] := Nat.toDigits_ne_nil
    generalize Nat.toDigits 10 n = ds at hd hlen hne
    have ht : (ds ++ '.' :: ' ' :: t).takeWhile Char.isDigit = ds := by
      rw [List.takeWhile_append_of_pos hd]
      simp [List.takeWhile]
    have h0 : (ds ++ '.' :: ' ' :: t).takeWhile (fun a => decide (a = '#')) = [] := by
      cases ds with
      | nil => exact absurd rfl hne
      | cons c ds =>
        rw [List.cons_append, List.takeWhile_cons_of_neg]
        intro e
        have e : c = '#' := by simpa using e
        have := hd c (by simp)
        rw [e] at this
        revert this; decide
    have hdr : (ds ++ '.' :: ' ' :: t).drop ds.length = '.' :: ' ' :: t := by simp
    have hdr2 : (ds ++ '.' :: ' ' :: t).drop (ds.length + 2) = t := by rw [← List.drop_drop, hdr]; rfl
    unfold mdLineBlock
    simp only [h0, ht, hdr, hdr2]
    rw [if_neg (by simp), if_neg, if_pos ⟨hne, by rfl⟩, if_pos hlen, mdText_of h h1 h2]
    · rfl
    · intro hp
      obtain ⟨y, hy⟩ := List.isPrefixOf_iff_prefix.mp hp
      cases ds with
      | nil => exact absurd rfl hne
      | cons c ds =>
        have : c = '-' := by
          have := congrArg List.head? hy
          simpa using this.symm
        have hc := hd c (by simp)
        rw [this] at hc
        revert hc; decide

theorem heading_line {n : Nat} {t : List Char} {q : List MdInline} (h : MdReads none t q) (h1 : HeadOk t) (h2 : LastOk t)
    (hn : 1 ≤ n) (hn' : n ≤ 6) : mdLineBlock (List.replicate n '#' ++ ' ' :: t) = some (.heading n q) := by
  have h0 : (List.replicate n '#' ++ ' ' :: t).takeWhile (fun a => decide (a = '#')) = List.replicate n '#' := by
    rw [List.takeWhile_append_of_pos (by intro c hc; simp [(List.mem_replicate.mp hc).2])]
    simp [List.takeWhile]
  have hdr : (List.replicate n '#' ++ ' ' :: t).drop n = ' ' :: t := by
    have := List.drop_left (l₁ := List.replicate n '#') (l₂ := ' ' :: t)
    rwa [List.length_replicate] at this
  have hdr2 : (List.replicate n '#' ++ ' ' :: t).drop (n + 1) = t := by rw [← List.drop_drop, hdr]; rfl
  unfold mdLineBlock
  simp only [h0, List.length_replicate, hdr, hdr2]
  rw [if_pos (by simp; omega), if_pos ⟨hn', rfl⟩, mdText_of h h1 h2]
  rfl

theorem splitOnChar_snoc (x : Char) (a b : List Char) : splitOnChar x (a ++ x :: b) = splitOnChar x a ++ splitOnChar x b := by
  induction a with
  | nil => simp [splitOnChar]
  | cons c a ih =>
    rw [List.cons_append]
    simp only [splitOnChar]
    split
    · rw [ih]; rfl
    · rw [ih]
      cases h : splitOnChar x a with
      | nil => cases a <;> simp only [splitOnChar] at h <;> (try split at h) <;> (try cases h) <;> (split at h <;> cases h)
      | cons p ps => rfl

/-- The lines of `x`, before a blank line or the end, are read as these blocks. -/
def MdPiece (x : List Char) (bs : List MdBlock) : Prop :=
  ∀ (rest : List (List Char)) (ys : List MdBlock), (∀ l, rest.head? = some l → l = []) → mdBlocks none rest = some ys →
    mdBlocks none (splitOnChar '\n' x ++ rest) = some (bs.foldr mdCons ys)

theorem MdPiece.nil : MdPiece [] [] := by
  intro rest ys _ h
  show mdBlocks none ([] :: rest) = _
  unfold mdBlocks
  rw [if_pos rfl, h]; rfl

theorem MdPiece.newline {x : List Char} {bs : List MdBlock} (h : MdPiece x bs) : MdPiece ('\n' :: x) bs := by
  intro rest ys h1 h2
  show mdBlocks none ([] :: (splitOnChar '\n' x ++ rest)) = _
  unfold mdBlocks
  rw [if_pos rfl, h rest ys h1 h2]

theorem MdPiece.line {x : List Char} {b : MdBlock} (h : mdLineBlock x = some b) (h0 : x ≠ []) (hf : "```".toList.isPrefixOf x = false)
    (hn : '\n' ∉ x) : MdPiece x [b] := by
  intro rest ys h1 h2
  rw [splitOnChar_none hn, List.singleton_append]
  unfold mdBlocks
  rw [if_neg h0, if_neg (by rw [hf]; simp), if_neg, h, Option.bind_some, h2]
  · rfl
  · cases hr : rest.head? with
    | none => simp
    | some l => simp [h1 l hr]

theorem fence_lines (info : List Char) (rest : List (List Char)) : ∀ (ls : List (List Char)) (t : List Char),
    (∀ l ∈ ls, mdFenceEnd l = false ∧ ∀ c ∈ l, c ∉ mdControl) →
    mdBlocks (some (info, t)) (ls ++ "```".toList :: rest) =
      (mdBlocks none rest).map fun bs => .code (some (String.ofList info)) [t ++ ls.flatMap fun l => l ++ ['\n']] :: bs
  | [], t, _ => by
    show mdBlocks (some (info, t)) ("```".toList :: rest) = _
    conv => lhs; unfold mdBlocks
    rw [if_pos (by decide)]
    simp
  | l :: ls, t, h => by
    obtain ⟨h1, h2⟩ := h l (by simp)
    rw [List.cons_append]
    conv => lhs; unfold mdBlocks
    rw [if_neg (by rw [h1]; simp), if_neg, fence_lines info rest ls _ fun l' hl' => h l' (by simp [hl'])]
    · simp
    · simp only [List.any_eq_true, decide_eq_true_eq, not_exists, not_and]
      exact h2

theorem splitOnChar_join (x : Char) (t : List Char) : ((splitOnChar x t).flatMap fun l => l ++ [x]) = t ++ [x] := by
  induction t with
  | nil => simp [splitOnChar]
  | cons c t ih =>
    simp only [splitOnChar]
    split
    · next e => rw [List.flatMap_cons, ih, e]; rfl
    · cases h : splitOnChar x t with
      | nil => rw [h] at ih; simp at ih
      | cons p ps =>
        rw [h] at ih
        simp only [List.flatMap_cons] at ih ⊢
        rw [List.cons_append, List.cons_append, ih]
        rfl

theorem MdPiece.code {lang raw : List Char} (h1 : ∀ l ∈ splitOnChar '\n' raw, mdFenceEnd l = false ∧ ∀ c ∈ l, c ∉ mdControl)
    (h2 : lang.any (fun c => isWhite c || c ∈ ['`', '\\', '&']) = false) :
    MdPiece ("```".toList ++ lang ++ '\n' :: raw ++ "\n```".toList) [.code (some (String.ofList lang)) [raw ++ ['\n']]] := by
  intro rest ys _ hr
  have hl : '\n' ∉ "```".toList ++ lang := by
    intro hm
    rcases List.mem_append.mp hm with hm | hm
    · revert hm; decide
    · have := List.any_eq_false.mp h2 _ hm
      revert this; decide
  have e : "```".toList ++ lang ++ '\n' :: raw ++ "\n```".toList = ("```".toList ++ lang) ++ '\n' :: (raw ++ '\n' :: "```".toList) := by
    simp
  rw [e, splitOnChar_append hl, splitOnChar_snoc]
  have e2 : splitOnChar '\n' "```".toList = ["```".toList] := splitOnChar_none (by decide)
  rw [e2, List.cons_append, List.append_assoc, List.singleton_append]
  unfold mdBlocks
  have e3 : ("```".toList ++ lang).drop 3 = lang := rfl
  rw [if_neg (by simp), if_pos (by simp), e3]
  simp only
  rw [h2, if_neg (by simp), fence_lines lang rest _ _ h1, splitOnChar_join, hr]
  rfl

/-- The same for a list of texts with blank lines between them. -/
def MdPieces : List (List Char) → List MdBlock → Prop
  | [], bs => bs = []
  | x :: xs, bs => ∃ b1 b2, bs = b1 ++ b2 ∧ MdPiece x b1 ∧ MdPieces xs b2

theorem MdPieces.append : ∀ {xs ys : List (List Char)} {bs cs : List MdBlock}, MdPieces xs bs → MdPieces ys cs → MdPieces (xs ++ ys) (bs ++ cs)
  | [], _, _, _, h, h' => by cases h; exact h'
  | x :: xs, ys, bs, cs, ⟨b1, b2, e, h1, h2⟩, h' => ⟨b1, b2 ++ cs, by rw [e, List.append_assoc], h1, h2.append h'⟩

theorem MdPieces.one {x : List Char} {bs : List MdBlock} (h : MdPiece x bs) : MdPieces [x] bs := ⟨bs, [], by simp, h, rfl⟩

theorem MdPieces.read {xs : List (List Char)} {bs : List MdBlock} (h : MdPieces xs bs) :
    readMarkdown (Store.joinWith "\n\n".toList xs) = some (bs.foldr mdCons []) := by
  have key : ∀ (xs : List (List Char)) (x : List Char) (bs : List MdBlock), MdPieces (x :: xs) bs →
      mdBlocks none (splitOnChar '\n' (x ++ xs.flatMap fun y => "\n\n".toList ++ y)) = some (bs.foldr mdCons []) := by
    intro xs
    induction xs with
    | nil =>
      intro x bs ⟨b1, b2, e, h1, h2⟩
      cases h2
      have := h1 [] [] (by simp) rfl
      simpa [e] using this
    | cons y xs ih =>
      intro x bs ⟨b1, b2, e, h1, h2⟩
      have := ih y b2 h2
      have e' : x ++ (y :: xs).flatMap (fun y => "\n\n".toList ++ y) = x ++ '\n' :: ('\n' :: (y ++ xs.flatMap fun y => "\n\n".toList ++ y)) := by
        simp
      rw [e', splitOnChar_snoc, e, List.foldr_append]
      refine h1 _ _ ?_ ?_
      · simp [splitOnChar]
      · simp only [splitOnChar, if_pos trivial]
        unfold mdBlocks
        rw [if_pos rfl]
        exact this
  cases xs with
  | nil => cases h; rfl
  | cons x xs => exact key xs x bs h

theorem cons_elements (n : Nat) (ls : List ListStyle) (b : MdBlock) (bs : List MdBlock) :
    blockElements n ls (mdCons b bs) = b.elements n ls ++ blockElements n ls bs := by
  unfold mdCons
  split
  · split
    · next h => subst h; simp [blockElements, MdBlock.elements, itemElements]
    · rfl
  · rfl

theorem cons_good {b : MdBlock} {bs : List MdBlock} (h : b.Good) (h' : GoodBlocks bs) : GoodBlocks (mdCons b bs) := by
  unfold mdCons
  split
  · split
    · refine ⟨?_, h'.2⟩
      simp only [MdBlock.Good, GoodItems] at h ⊢
      have := h'.1
      simp only [MdBlock.Good] at this
      exact ⟨h.1, this⟩
    · exact ⟨h, h'⟩
  · exact ⟨h, h'⟩

theorem fold_elements (bs : List MdBlock) (h : ∀ b ∈ bs, b.Good) : GoodBlocks (bs.foldr mdCons []) ∧
    blockElements 0 [] (bs.foldr mdCons []) = bs.flatMap (MdBlock.elements 0 []) := by
  induction bs with
  | nil => exact ⟨trivial, rfl⟩
  | cons b bs ih =>
    obtain ⟨h1, h2⟩ := ih fun b' hb' => h b' (by simp [hb'])
    rw [List.foldr_cons]
    exact ⟨cons_good (h b (by simp)) h1, by rw [cons_elements, h2, List.flatMap_cons]⟩

/-- What a paragraph writes: its text is read as blocks that become the paragraph. -/
def MdWrites (lists : Nat → Option TList) (p : SPara) (x : List Char) : Prop :=
  ∃ bs, MdPiece x bs ∧ (∀ b ∈ bs, b.Good) ∧ (bs.flatMap (MdBlock.elements 0 [])).map ParsedElement.fine =
    if mdShown p then [.block (mdBlockOf lists p)] else []

theorem Shows.codeMarkdown (h : Shows s d ps) (hp : p ∈ ps) (x : Int) (hfit : MdFit s.lists p) (hc : p.shape.fmtIsCodeBlock = some true) :
    ∃ t, s.codeMarkdown [] (p.entity x) = some t ∧ MdWrites s.lists p t := by
  obtain ⟨segs, h1, h2⟩ := h.blockSegments hp
  obtain ⟨f1, f2⟩ := hfit.code hc
  have hid : (p.entity x).id = p.id := rfl
  have hlang : (p.entity x).fmtCodeLanguage = p.shape.fmtCodeLanguage := rfl
  unfold Store.codeMarkdown
  rw [hid, h1, hlang]
  simp only [Option.map_some, rawText_of_items h2, if_pos trivial]
  refine ⟨_, rfl, _, MdPiece.code f1 ?_, ?_, ?_⟩
  · cases hl : p.shape.fmtCodeLanguage with
    | none => rfl
    | some l => exact f2 l hl
  · intro b hb
    simp at hb
    rw [hb]; trivial
  · rw [if_pos (by unfold mdShown; simp [hc])]
    unfold mdBlockOf
    rw [if_pos hc]
    have hls : (some (String.ofList (p.shape.fmtCodeLanguage.getD "").toList)).bind (fun l => if l = "" then none else some l) =
        p.shape.fmtCodeLanguage.bind fun l => if l = "" then none else some l := by
      cases p.shape.fmtCodeLanguage <;> simp
    simp only [List.flatMap_cons, List.flatMap_nil, List.append_nil, MdBlock.elements, List.map_cons, List.map_nil, hls, ParsedElement.fine]
    simp [codeSpans, trimLast, dropNewline, SPara.text]

theorem fine_block {b : ParsedBlock} : ParsedElement.fine (.block b) = .block { b with spans := fineSpans b.spans } := rfl

theorem MdLines.push_pieces {x : Store.MdLines} {bs cs : List MdBlock} {sep line : List Char} (h : MdPieces x.lines bs)
    (hs : sep = ['\n'] ∨ sep = "\n\n".toList) (hl : MdPiece line cs) : MdPieces (x.push sep line).lines (bs ++ cs) := by
  have hsep : MdPiece sep [] := by
    rcases hs with rfl | rfl
    · exact MdPiece.nil.newline
    · exact MdPiece.nil.newline.newline
  unfold Store.MdLines.push
  split
  · exact h.append (.one hl)
  · exact h.append ⟨[], cs, rfl, hsep, .one hl⟩

/-- One paragraph. -/
theorem Shows.blockMarkdown (h : Shows s d ps) (hp : p ∈ ps) (pos : Int) (hfit : MdFit s.lists p) (x : Store.MdLines) (hn : x.counter + 1 < 10 ^ 9)
    (bs : List MdBlock) (hx : MdPieces x.lines bs) :
    ∃ x' cs, x.block s [] (p.entity pos) = some x' ∧ x'.counter ≤ x.counter + 1 ∧ MdPieces x'.lines (bs ++ cs) ∧ (∀ b ∈ cs, b.Good) ∧
      (cs.flatMap (MdBlock.elements 0 [])).map ParsedElement.fine = if mdShown p then [.block (mdBlockOf s.lists p)] else [] := by
  have hcode : (p.entity pos).fmtIsCodeBlock = p.shape.fmtIsCodeBlock := rfl
  have hhead : (p.entity pos).fmtHeadingLevel = p.shape.fmtHeadingLevel := rfl
  have hid : (p.entity pos).id = p.id := rfl
  have hst := h.blockList hp pos
  unfold Store.MdLines.block
  rw [hcode, hhead, hst, hid]
  by_cases hc : p.shape.fmtIsCodeBlock = some true
  · obtain ⟨t, t1, cs, t2, t3, t4⟩ := h.codeMarkdown hp pos hfit hc
    rw [if_pos hc, t1]
    exact ⟨_, cs, rfl, Nat.zero_le _, MdLines.push_pieces hx (.inr rfl) t2, t3, t4⟩
  · rw [if_neg hc]
    obtain ⟨t, q, t1, t2, t3, t4, t5, xs, t6, t7, t8⟩ := h.inlineMarkdown hp pos (hfit.line hc)
    rw [t1, Option.bind_some]
    have hsepc : ∀ (b : Prop) [Decidable b], (if b then ['\n'] else "\n\n".toList) = ['\n'] ∨
        (if b then ['\n'] else "\n\n".toList) = "\n\n".toList := by
      intro b _; by_cases hb : b <;> simp [hb]
    have hlines : linesOf q = [xs] := by unfold linesOf; rw [t6, breakLines_some]
    have hspans : spansOf q = xs := by unfold spansOf; rw [t6]; simp
    have hnb : NoBreak q := by unfold NoBreak; rw [t6]; simp
    have hof : mdBlockOf s.lists p = { spans := p.chars.map mdSpan, headingLevel := p.shape.fmtHeadingLevel, listStyle := (itemOf s.lists p).map mdListStyle } := by
      unfold mdBlockOf; rw [if_neg hc]
    cases hh : p.shape.fmtHeadingLevel with
    | some n =>
      obtain ⟨n1, n2, n3, n4⟩ := hfit.heading hc n hh
      obtain ⟨e1, e2⟩ := t4 n4
      have hrep : Store.repeatInt ['#'] n = some (List.replicate n.toNat '#') := by
        unfold Store.repeatInt
        rw [if_neg (by omega)]
        congr 1
        generalize n.toNat = k
        induction k with
        | zero => rfl
        | succ k ih => simp [List.replicate_succ, ih]
      have hl := heading_line t2 e1 e2 (show 1 ≤ n.toNat by omega) (show n.toNat ≤ 6 by omega)
      obtain ⟨m, hm⟩ : ∃ m, n.toNat = m + 1 := ⟨n.toNat - 1, by omega⟩
      have hpiece : MdPiece ([] ++ List.replicate n.toNat '#' ++ ' ' :: t) [.heading n.toNat q] := by
        refine MdPiece.line hl (by simp) ?_ ?_
        · rw [hm, List.replicate_succ]; rfl
        · simp only [List.nil_append, List.mem_append, List.mem_replicate, List.mem_cons, not_or]
          exact ⟨fun e => by have := e.2; revert this; decide, by decide, t5⟩
      simp only [hrep, Option.map_some]
      refine ⟨_, [.heading n.toNat q], rfl, Nat.le_succ _, MdLines.push_pieces hx (hsepc _) hpiece, ?_, ?_⟩
      · intro b hb; simp at hb; rw [hb]; exact ⟨t8, hnb⟩
      · rw [if_pos (by unfold mdShown; simp [n4]), hof, hh, n3]
        simp only [List.flatMap_cons, List.flatMap_nil, List.append_nil, MdBlock.elements, List.map_cons, List.map_nil, fine_block, hspans, t7]
        rw [show ((n.toNat : Nat) : Int) = n by omega]
        rfl
    | none =>
      cases hl : p.shape.list.bind s.lists with
      | some l =>
        obtain ⟨i1, i2⟩ := hfit.item hc l hl
        obtain ⟨e1, e2⟩ := t4 i2
        have hrep : Store.repeatInt [' ', ' '] l.indent = some [] := by rw [i1]; rfl
        have hitem : itemOf s.lists p = some (numbered l.style) := by unfold itemOf; rw [hl]; rfl
        have hels : ∀ o, numbered l.style = o → (([MdBlock.list o [.loose q []]]).flatMap (MdBlock.elements 0 [])).map ParsedElement.fine =
            if mdShown p then [.block (mdBlockOf s.lists p)] else [] := by
          intro o ho
          rw [if_pos (by unfold mdShown; simp [i2]), hof, hh, hitem, ho]
          simp only [List.flatMap_cons, List.flatMap_nil, List.append_nil, MdBlock.elements, itemElements, MdItem.elements, blockElements,
            List.map_cons, List.map_nil, hlines, fine_block, t7]
          rfl
        have hgood : ∀ o, ∀ b ∈ [MdBlock.list o [.loose q []]], b.Good := by
          intro o b hb; simp at hb; rw [hb]
          exact ⟨⟨t8, trivial⟩, trivial⟩
        simp only [hrep, Option.map_some]
        cases ho : numbered l.style with
        | true =>
          rw [if_pos (by rw [numbered_eq, ho])]
          generalize hk : (if (s.blocks p.id).bind Block.list = x.list then x.counter + 1 else 1) = k
          have hk' : k ≤ x.counter + 1 := by rw [← hk]; split <;> omega
          have hline := item_line (o := true) (n := k) t2 e1 e2 (by omega)
          rw [if_pos rfl] at hline
          have hpiece : MdPiece ([] ++ [] ++ (toString k).toList ++ ". ".toList ++ t) [.list true [.loose q []]] := by
            have hd : ∀ c ∈ (toString k).toList, c.isDigit = true := by
              rw [Nat.toString_eq_repr, Nat.toList_repr]
              exact fun c hc => Nat.isDigit_of_mem_toDigits (by omega) (by omega) hc
            have hne : (toString k).toList ≠ [] := by
              rw [Nat.toString_eq_repr, Nat.toList_repr]; exact Nat.toDigits_ne_nil
            refine MdPiece.line hline (by simp [hne]) ?_ ?_
            · generalize (toString k).toList = ds at hd hne
              cases ds with
              | nil => exact absurd rfl hne
              | cons c ds =>
                have : c ≠ '`' := by
                  rintro rfl
                  have := hd '`' (by simp)
                  revert this; decide
                have : ('`' == c) = false := by simp; exact fun e => this e.symm
                simp [List.isPrefixOf, this]
            · intro hm
              simp only [List.nil_append, List.mem_append] at hm
              rcases hm with (hm | hm) | hm
              · have := hd _ hm; revert this; decide
              · revert hm; decide
              · exact t5 hm
          refine ⟨_, [.list true [.loose q []]], rfl, hk', MdLines.push_pieces hx (hsepc _) hpiece, hgood true, hels true ho⟩
        | false =>
          rw [if_neg (by rw [numbered_eq, ho]; simp)]
          have hline := item_line (o := false) (n := 0) t2 e1 e2 (by omega)
          rw [if_neg (by simp)] at hline
          have hpiece : MdPiece ([] ++ [] ++ "- ".toList ++ t) [.list false [.loose q []]] := by
            refine MdPiece.line hline (by simp) rfl ?_
            intro hm
            simp at hm
            exact t5 hm
          refine ⟨_, [.list false [.loose q []]], rfl, Nat.le_succ _, MdLines.push_pieces hx (hsepc _) hpiece, hgood false, hels false ho⟩
      | none =>
        have hitem : itemOf s.lists p = none := by unfold itemOf; rw [hl]; rfl
        by_cases h0 : p.chars = []
        · rw [t3 h0]
          refine ⟨_, [], rfl, Nat.zero_le _, MdLines.push_pieces hx (hsepc _) MdPiece.nil, by simp, ?_⟩
          rw [if_neg (by unfold mdShown; simp [h0, hc])]
          rfl
        · obtain ⟨e1, e2⟩ := t4 h0
          obtain ⟨l1, l2, l3⟩ := para_line t2 e1 e2
          refine ⟨_, [.para q], rfl, Nat.zero_le _, MdLines.push_pieces hx (hsepc _) (MdPiece.line l1 l2 l3 t5), ?_, ?_⟩
          · intro b hb; simp at hb; rw [hb]; exact t8
          · rw [if_pos (by unfold mdShown; simp [h0]), hof, hh, hitem]
            simp only [List.flatMap_cons, List.flatMap_nil, List.append_nil, MdBlock.elements, List.map_cons, List.map_nil, hlines, fine_block, t7]
            rfl

theorem Shows.childrenMarkdown (h : Shows s d ps) (hpos : ∀ p ∈ ps, 0 < p.id) (hfit : ∀ p ∈ ps, MdFit s.lists p)
    (cells : List Nat) (sub : List Char → Nat → Option (List (List Char))) (qs : List SPara) (hq : ∀ q ∈ qs, q ∈ ps) (x : Store.MdLines)
    (hn : x.counter + qs.length < 10 ^ 9) (bs : List MdBlock) (hx : MdPieces x.lines bs) :
    ∃ x' cs, s.childrenMarkdown cells [] sub (qs.map fun p => (p.id : Int)) x = some x' ∧ MdPieces x'.lines (bs ++ cs) ∧ (∀ b ∈ cs, b.Good) ∧
      (cs.flatMap (MdBlock.elements 0 [])).map ParsedElement.fine = (qs.filter mdShown).map fun p => .block (mdBlockOf s.lists p) := by
  induction qs generalizing x bs with
  | nil => exact ⟨x, [], rfl, by simpa using hx, by simp, rfl⟩
  | cons q qs ih =>
    have h0 := hpos q (hq q (by simp))
    have hq0 := hq q (by simp)
    rw [List.length_cons] at hn
    obtain ⟨x1, c1, e1, e2, e3, e4, e5⟩ := h.blockMarkdown hq0 (s.storedPos q) (hfit q hq0) x (by omega) bs hx
    obtain ⟨x2, c2, k1, k2, k3, k4⟩ := ih (fun q' hq' => hq q' (by simp [hq'])) x1 (by omega) _ e3
    refine ⟨x2, c1 ++ c2, ?_, by rw [← List.append_assoc]; exact k2, ?_, ?_⟩
    · rw [List.map_cons]
      unfold Store.childrenMarkdown
      rw [if_pos (by omega), show ((q.id : Int)).toNat = q.id by omega, h.stored hq0]
      simp only
      rw [e1, Option.bind_some, k1]
    · intro b hb
      rcases List.mem_append.mp hb with hb | hb
      · exact e4 b hb
      · exact k3 b hb
    · rw [List.flatMap_append, List.map_append, e5, k4, List.filter_cons]
      split <;> simp

/-- The whole document. -/
theorem Flat.exportMarkdown (h : Flat s d f ps) (hfit : ∀ p ∈ ps, MdFit s.lists p) (hn : ps.length < 10 ^ 9) :
    ∃ t bs, s.exportMarkdown = some t ∧ readMarkdown t = some bs ∧ GoodBlocks bs ∧
      (blockElements 0 [] bs).map ParsedElement.fine = (ps.filter mdShown).map fun p => .block (mdBlockOf s.lists p) := by
  have hcells : s.cellFrameIds d.id = [] := by simp [Store.cellFrameIds, h.docTables]
  obtain ⟨fr, f1, f2, f3, f4⟩ := h.frame
  have hne : ¬ fr.childOrder = [] := by rw [f3]; simp [h.nonempty]
  obtain ⟨x, bs, x1, x2, x3, x4⟩ := h.toShows.childrenMarkdown h.positive hfit [] (Store.frameMarkdown s [] s.frames.keys.length) ps
    (fun q hq => hq) {} (by simpa using hn) [] rfl
  have hfrm : Store.frameMarkdown s [] (s.frames.keys.length + 1) [] f = some x.lines := by
    unfold Store.frameMarkdown
    rw [f1]
    simp only
    rw [if_neg hne, f3, x1]
    rfl
  have htop : Store.topMarkdown s [] f = some x.lines := by
    unfold Store.topMarkdown
    rw [f1, Option.bind_some, (h.plain fr f1).1]
    exact hfrm
  obtain ⟨g1, g2⟩ := fold_elements bs x3
  refine ⟨_, _, ?_, x2.read, ?_, ?_⟩
  · unfold Store.exportMarkdown
    rw [h.docId, Option.bind_some]
    simp only [hcells, h.docFrames]
    simp [mapOpt, htop]
  · exact g1
  · rw [List.nil_append, g2, x4]

end Verif
