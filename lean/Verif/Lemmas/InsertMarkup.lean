import Verif.Lemmas.PasteOne
import Verif.Lemmas.ImportWrite
import Verif.Lemmas.ListSharing
import Verif.Model.InsertMarkup
import Verif.Spec.InsertMarkup
/- Inserting parsed blocks into a document of one frame. -/
namespace Verif
variable {s : Store} {d : Document} {f : Nat} {ps L R : List SPara} {p : SPara} {st : RopeSt} {fr : Frame} {a b : List SChar}
open Store

theorem inlineOnly_eq (b : ParsedBlock) : b.inlineOnly = textual b := by
  rw [Bool.eq_iff_iff]
  cases b
  simp [ParsedBlock.inlineOnly, textual, Option.isNone_iff_eq_none, and_assoc]

theorem flatten_eq (es : List ParsedElement) : flattenToBlocks es = blocksOf es := by
  unfold flattenToBlocks blocksOf
  dsimp only
  split
  · rename_i h; exact (if_pos h).symm
  · rename_i h; exact Eq.trans h.symm (Eq.symm (if_neg fun e => absurd (h.symm.trans e) (by simp)))

theorem parsedState_styled (b : ParsedBlock) : StyledOk (parsedState b).runs b.chars ∧ (parsedState b).imgs = [] ∧
    (parsedState b).text = b.chars.map Prod.fst :=
  ⟨(formatRuns_styled _ _).2, rfl, (formatRuns_styled _ _).1⟩

theorem parsedState_length (b : ParsedBlock) : (parsedState b).text.length = b.chars.length := by
  rw [(parsedState_styled b).2.2, List.length_map]

theorem InTurn.mono {α β : Type} {P Q : α → β → Prop} (hpq : ∀ a b, P a b → Q a b) {l : List α} {m : List β}
    (h : InTurn P l m) : InTurn Q l m := by
  induction l generalizing m with
  | nil => cases m with
    | nil => trivial
    | cons y m => exact h.elim
  | cons x l ih => cases m with
    | nil => exact h.elim
    | cons y m => exact ⟨hpq _ _ h.1, ih h.2⟩

theorem InTurn.length_eq {α β : Type} {P : α → β → Prop} {l : List α} {m : List β} (h : InTurn P l m) : m.length = l.length := by
  induction l generalizing m with
  | nil => cases m with
    | nil => rfl
    | cons y m => exact h.elim
  | cons x l ih => cases m with
    | nil => exact h.elim
    | cons y m => simp [ih h.2]

theorem InsertedOne.mono {s' : Store} {html : Bool} {b : ParsedBlock} {q : SPara} (h : InsertedOne s html b q)
    (hl : ∀ i e, s.lists i = some e → s'.lists i = some e) : InsertedOne s' html b q :=
  ⟨h.chars, h.format, h.list.mono hl⟩

/-- Another text of the same paragraphs. -/
theorem Adding.swap {st' : RopeSt} (h : Adding s st d f fr ps) (ht : Repr st' (paras ps)) : Adding s st' d f fr ps := by
  have hs := h.shows_
  exact ⟨⟨hs.root, hs.document, ht, hs.keys, hs.block, hs.absent, hs.formats, hs.images, hs.fresh⟩, h.frames, h.tables,
    h.frame, h.frid, h.others, h.positive, h.plain⟩

/-! ### The text -/

theorem ropeHeadText_repr {Lp Rp : List Para} {id : Nat} {c : List Char} (h : Repr st (Lp ++ (.block id, c) :: Rp))
    (hR : span Rp ≠ 1) (t : List Char) :
    ∃ st', ropeHeadText st id t = some (st', some (span Lp + utf8Len t)) ∧ Repr st' (Lp ++ (.block id, t) :: Rp) := by
  obtain ⟨st', h1, h2⟩ := replaceContent_repr t h hR
  refine ⟨st', ?_, h2⟩
  unfold ropeHeadText
  rw [h.focus.rangeOf, Option.bind_some]
  dsimp only
  rw [h1]; rfl

theorem ropeAddAt_repr (qs : List SPara) : ∀ {st : RopeSt} {Lp Rp : List Para} {m : Marker} {c : List Char},
    Repr st (Lp ++ (m, c) :: Rp) → ((Lp ++ (m, c) :: (paras qs ++ Rp)).map Prod.fst).Nodup →
    ∃ st', ropeAddAt (qs.map fun q => (q.id, q.text)) (some (span Lp + utf8Len c)) st = some st' ∧
      Repr st' (Lp ++ (m, c) :: (paras qs ++ Rp)) := by
  induction qs with
  | nil => intro st Lp Rp m c h _; exact ⟨st, rfl, h⟩
  | cons q qs ih =>
    intro st Lp Rp m c h hnd
    rw [paras_cons] at hnd
    obtain ⟨st1, e1, e2⟩ := insertBlockAt_repr (new := q.id) q.text h (by
      intro hm
      have hp : (Lp ++ (m, c) :: (((Marker.block q.id, q.text) :: paras qs) ++ Rp)).Perm
          ((.block q.id, q.text) :: (paras qs ++ (Lp ++ (m, c) :: Rp))) := by
        have e : Lp ++ (m, c) :: (((Marker.block q.id, q.text) :: paras qs) ++ Rp) =
          (Lp ++ [(m, c)]) ++ (Marker.block q.id, q.text) :: (paras qs ++ Rp) := by simp
        rw [e]
        refine List.perm_middle.trans (.cons _ ?_)
        have e2 : Lp ++ (m, c) :: Rp = (Lp ++ [(m, c)]) ++ Rp := by simp
        rw [e2, ← List.append_assoc, ← List.append_assoc]
        exact .append_right _ List.perm_append_comm
      have := (hp.map Prod.fst).nodup_iff.mp hnd
      rw [List.map_cons, List.nodup_cons] at this
      exact this.1 (by rw [List.map_append]; exact List.mem_append_right _ hm))
    have e : ∀ X : List Para, Lp ++ (m, c) :: (.block q.id, q.text) :: X = (Lp ++ [(m, c)]) ++ (.block q.id, q.text) :: X := by simp
    rw [e] at e2
    obtain ⟨st2, e3, e4⟩ := ih e2 (by
      have := hnd
      rw [List.cons_append, e] at this
      exact this)
    refine ⟨st2, ?_, ?_⟩
    · rw [List.map_cons, ropeAddAt, e1, Option.bind_some]
      have : span (Lp ++ [(m, c)]) = span Lp + utf8Len c + 1 := by simp [span_append, span_cons]; omega
      rw [this] at e3
      exact e3
    · rw [paras_cons, List.cons_append, e]; exact e4

/-! ### The new paragraphs -/

theorem Adding.addParsed (html : Bool) (bs : List ParsedBlock) :
    ∀ {s : Store} {st : RopeSt} {d : Document} {g : ListGrouper} {past : Imported} {L : List SPara} {p : SPara} (index : Nat) (running : Int),
    Adding s st d f fr (L ++ p :: R) → ListsOk s d (L ++ p :: R) → GrouperOk s g → GrouperKnows g past →
    ∃ s' ls qs st', addParsedBlocks html d.id f bs index running g s =
        some (s', qs.map (fun q => (q.id, q.text)), running + charsBefore (paras qs)) ∧
      Adding s' st' { d with lists := ls } f fr (L ++ p :: (qs ++ R)) ∧
      ListsOk s' { d with lists := ls } (L ++ p :: (qs ++ R)) ∧ InTurn (InsertedOne s' html) bs qs ∧
      (∀ A q B, qs = A ++ q :: B → ∃ b, s'.blocks q.id = some b ∧ b.documentPosition = running + charsBefore (paras A)) ∧
      (∀ i, i < s.next "block" → s'.blocks i = s.blocks i) ∧ s.next "block" ≤ s'.next "block" ∧
      (∀ q ∈ qs, s.next "block" ≤ q.id) ∧ s'.text = s.text ∧ (∀ i e, s.lists i = some e → s'.lists i = some e) ∧
      ListsJoined d.lists past (bs.map listAsked) (qs.map fun q => q.shape.list) := by
  induction bs with
  | nil =>
    intro s st d g past L p index running h hl hg hk
    refine ⟨s, d.lists, [], st, ?_, h, hl, trivial, ?_, fun _ _ => rfl, Nat.le_refl _, by simp, rfl,
      fun _ _ h => h, trivial⟩
    · simp [addParsedBlocks]
    · intro A q B e; simp at e
  | cons b bs ih =>
    intro s st d g past L p index running h hl hg hk
    obtain ⟨s1, g1, l, ls, e1, a1, l1, gr1, like1, in1, b1, t1, n1, m1⟩ := h.chooseList hl hg (parsedList b)
    obtain ⟨rule1, k1⟩ := h.chooseRule hl hk e1
    obtain ⟨hst, _, htx⟩ := parsedState_styled b
    obtain ⟨s2, st1, st2, c1, c2, c3, c4, c5, c6, c7, c8, c9, c10⟩ :=
      a1.add (blk := insertedBlock html b l running) rfl (index : Int) hst
        (insertedShape html b l) (fun _ => rfl)
    rw [n1] at c1 c2 c3 c4 c5 c6 c7 c8 c9 c10
    generalize hn : s.next "block" = n at *
    generalize hs3 : s2.writeState n (parsedState b).runs [] = s3 at *
    generalize hq : (⟨n, b.chars, insertedShape html b l⟩ : SPara) = q at *
    have hqid : q.id = n := by subst hq; rfl
    have hqt : q.text = (parsedState b).text := by subst hq; exact htx.symm
    have hql : q.shape.list = l := by subst hq; rfl
    have hqc : q.chars = b.chars := by subst hq; rfl
    have hl3 : ListsOk s3 { d with lists := ls } (L ++ p :: q :: R) := l1.addPara c6 c9 (by rw [hql]; exact in1)
    have hg3 : GrouperOk s3 g1 := gr1.mono (by rw [c6]; exact fun _ _ h => h)
    have e : L ++ p :: q :: R = (L ++ [p]) ++ q :: R := by simp
    rw [e] at c4 hl3
    obtain ⟨s', ls', qs, st', i1, i3, i4, i5, i6, i7, i8, i9, i10, i11, i12⟩ :=
      ih (index + 1) (running + ((parsedState b).text.length + 1 : Nat)) c4 hl3 hg3 k1
    have hlen : (parsedState b).text.length = q.chars.length := by rw [parsedState_length, hqc]
    have hm1 : ∀ i e, s1.lists i = some e → s'.lists i = some e := by
      intro i e hi; apply i11; rw [c6]; exact hi
    refine ⟨s', ls', q :: qs, st', ?_, ?_, ?_, ⟨⟨hqc, ?_, ?_⟩, i5⟩, ?_, ?_, ?_, ?_, ?_, ?_, ?_⟩
    · unfold addParsedBlocks
      rw [e1, Option.bind_some]
      dsimp only
      rw [c1, Option.bind_some]
      dsimp only
      rw [hs3]
      have i1' : addParsedBlocks html d.id f bs (index + 1) (running + ((parsedState b).text.length + 1 : Nat)) g1 s3 = _ := i1
      rw [i1', Option.map_some]
      dsimp only
      rw [List.map_cons, hqid, hqt, hlen, charsBefore_paras_cons]
      congr 3
      push_cast; omega
    · have := i3; simpa using this
    · have := i4; simpa using this
    · subst hq; rfl
    · rw [hql]; exact like1.mono hm1
    · intro A x B eq
      cases A with
      | nil =>
        simp only [List.nil_append, List.cons.injEq] at eq
        obtain ⟨rfl, _⟩ := eq
        have hb := i7 q.id (by rw [c10, hqid]; omega)
        rw [c5, if_pos hqid] at hb
        exact ⟨_, hb, by rw [charsBefore_paras_nil]; simp [insertedBlock]⟩
      | cons y A =>
        simp only [List.cons_append, List.cons.injEq] at eq
        obtain ⟨rfl, eq⟩ := eq
        obtain ⟨b, hb1, hb2⟩ := i6 A x B eq
        refine ⟨b, hb1, ?_⟩
        rw [hb2, charsBefore_paras_cons, hlen]
        push_cast; omega
    · intro i hi
      rw [i7 i (by rw [c10]; omega), c5, if_neg (by omega), b1]
    · omega
    · intro x hx
      rcases List.mem_cons.mp hx with rfl | hx
      · omega
      · have := i9 x hx; omega
    · rw [i10, c8, t1]
    · intro i e hi
      exact hm1 i e (m1 i e hi)
    · rw [List.map_cons, List.map_cons, hql]
      refine ⟨rule1, ?_⟩
      refine i12.fewer fun i hi => ?_
      rcases List.mem_append.mp hi with hi | hi
      · exact in1 i (by simpa using hi)
      · obtain ⟨e, h1, _⟩ := hl.known i hi
        exact l1.only i (by rw [m1 i e h1]; rfl)

end Verif
