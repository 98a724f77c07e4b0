import Verif.Lemmas.OrderEdit
import Verif.Model.DeleteCells
/-
Deleting across table cells keeps a store in good order.
-/
namespace Verif

/-- The kinds a deletion across cells takes nothing from before it removes the unused lists. -/
def keptKinds (k : EKind) : Bool := decide (k = .root ∨ k = .document ∨ k = .resource ∨ k = .list)

/-- The kinds it never takes anything from. -/
def lastKinds (k : EKind) : Bool := decide (k = .root ∨ k = .document ∨ k = .resource)

theorem last_kept : ∀ k, lastKinds k = true → keptKinds k = true := by
  intro k; cases k <;> decide

theorem kept_notBlocks : ∀ k, keptKinds k = true → notBlocks k = true := by
  intro k; cases k <;> decide

theorem kept_notFrames : ∀ k, keptKinds k = true → notFrames k = true := by
  intro k; cases k <;> decide

theorem kept_notTables : ∀ k, keptKinds k = true → notTables k = true := by
  intro k; cases k <;> decide

theorem Fine.clearBlock {s t : Store} (h : Fine s) {b : Block} (hb : Here s b) (hi : s.clearBlock b = some t) :
    Grows s t ∧ t.frames = s.frames := by
  simp only [Store.clearBlock, Option.map_eq_some_iff] at hi
  obtain ⟨r, _, he⟩ := hi
  have g1 := h.updateBlock hb.fit
  have g2 := g1.trans (g1.fine.withText r)
  have g3 := g2.trans (g2.fine.setRuns (g2.keep .block b.id rfl hb.here) [])
  have g4 := g3.trans (g3.fine.setImages (g3.keep .block b.id rfl hb.here) [])
  cases he
  exact ⟨g4, rfl⟩

/-- The blocks a frame lists, after other blocks were removed. -/
structure Spares (id : Nat) (s t : Store) : Prop where
  leads : Leads notBlocks s t
  keeps : ∀ f fr x, s.frames f = some fr → x ∈ fr.blocks → x ≠ id → ∃ fr', t.frames f = some fr' ∧ x ∈ fr'.blocks

theorem Fine.forgetBlock {s t : Store} (h : Fine s) {id : Nat} (hi : s.forgetBlock id = some t) : Spares id s t := by
  simp only [Store.forgetBlock] at hi
  have g1 := h.eraseFormats id
  have g2 := g1.fine.removeBlocks' (K := notBlocks) hi (by decide)
  refine ⟨(Leads.of g1).trans g2, fun f fr x hf hx hne => ?_⟩
  rcases g1.fine.removeBlocks hi with rfl | rfl
  · exact ⟨fr, hf, hx⟩
  · have := (dropEnts_forgot g1.fine.tidy .block [id]).tab .frame f
    refine ⟨(forget (goneOf .block [id]) .frame fr : Frame), ?_, ?_⟩
    · have hf' : ({ s with formatRuns := s.formatRuns.erase id, blockImages := s.blockImages.erase id } : Store).tab
          .frame f = some fr := hf
      rw [hf'] at this
      simp only [goneOf, reduceCtorEq, decide_false, Bool.false_and, Bool.false_eq_true, if_false, Option.map_some] at this
      exact this
    · simp only [forget, List.mem_filter]
      exact ⟨hx, by simp [goneOf, hne]⟩

theorem Fine.forgetBlocks {s t : Store} (h : Fine s) {ids : List Nat} (hi : Store.forgetBlocks ids s = some t) :
    Leads notBlocks s t ∧ ∀ f fr x, s.frames f = some fr → x ∈ fr.blocks → x ∉ ids →
      ∃ fr', t.frames f = some fr' ∧ x ∈ fr'.blocks := by
  induction ids generalizing s with
  | nil => cases hi; exact ⟨.refl h, fun f fr x hf hx _ => ⟨fr, hf, hx⟩⟩
  | cons i ids ih =>
    simp only [Store.forgetBlocks, Option.bind_eq_some_iff] at hi
    obtain ⟨u, hu, hi⟩ := hi
    have g := h.forgetBlock hu
    obtain ⟨g2, k2⟩ := ih g.leads.fine hi
    refine ⟨g.leads.trans g2, fun f fr x hf hx hne => ?_⟩
    simp only [List.mem_cons, not_or] at hne
    obtain ⟨fr', h1, h2⟩ := g.keeps f fr x hf hx hne.1
    exact k2 f fr' x h1 h2 hne.2

theorem Fine.clearCell {s t : Store} (h : Fine s) {cf : Nat} {n : Int} (hi : s.clearCell cf = some (n, t)) :
    Leads notBlocks s t := by
  simp only [Store.clearCell, Option.bind_eq_some_iff] at hi
  obtain ⟨frame, hframe, hi⟩ := hi
  split at hi
  · cases hi; exact .refl h
  · rename_i b bs hbs
    simp only [Option.bind_eq_some_iff, Option.map_eq_some_iff] at hi
    obtain ⟨lens, _, s1, h1, s2, h2, he⟩ := hi
    cases he
    have hmem : ∀ c ∈ b :: bs, c ∈ s.getBlocks (s.frameBlocks cf) := fun c hc => mem_sortByKey.mp (hbs ▸ hc)
    have hhere := h.hereBlocks (s.frameBlocks cf)
    obtain ⟨g1, e1⟩ := h.clearBlock (hhere b (hmem b (.head _))) h1
    obtain ⟨g2, k2⟩ := g1.fine.forgetBlocks h2
    have hids : (s.getBlocks (s.frameBlocks cf)).map Block.id = s.frameBlocks cf := by
      have hall : ∀ l : List Nat, (∀ i ∈ l, (s.blocks i).isSome = true) → (s.getBlocks l).map Block.id = l := by
        intro l
        induction l with
        | nil => intro _; rfl
        | cons i l ih =>
          intro hl
          obtain ⟨x, hx⟩ := Option.isSome_iff_exists.mp (hl i (.head _))
          simp only [Store.getBlocks, List.filterMap_cons, hx, List.map_cons] at ih ⊢
          rw [ih fun j hj => hl j (.tail _ hj), block_id h hx]
      refine hall _ fun i hi => ?_
      simp only [Store.frameBlocks, hframe] at hi
      exact (h.tidy.refs .frame cf frame hframe).owns (.block, i) (by simpa [owns] using hi)
    have hnd : ((b :: bs).map Block.id).Nodup := by
      have hp : (b :: bs).Perm (s.getBlocks (s.frameBlocks cf)) := hbs ▸ sortByKey_perm _ _
      rw [(hp.map Block.id).nodup_iff, hids]
      simp only [Store.frameBlocks, hframe]
      exact h.blocksOnce hframe
    simp only [List.map_cons, List.nodup_cons] at hnd
    have hin : b.id ∈ frame.blocks := by
      have : b.id ∈ (s.getBlocks (s.frameBlocks cf)).map Block.id := List.mem_map_of_mem (hmem b (.head _))
      rw [hids] at this
      simpa [Store.frameBlocks, hframe] using this
    obtain ⟨fr', hf', hb'⟩ := k2 cf frame b.id (by rw [e1]; exact hframe) hin hnd.1
    have g3 := (Leads.of g1).trans g2
    refine g3.trans (.of (g3.fine.updateFrame (f := { frame with childOrder := [(b.id : Int)] }) (o := fr')
      ((congrArg s2.frames.get (frame_id h hframe)).trans hf') fun j hj _ => ?_))
    simp only [List.mem_singleton] at hj
    subst hj
    simpa using hb'

theorem Fine.clearCells {s t : Store} (h : Fine s) {cfs : List Nat} {n : Int}
    (hi : Store.clearCells cfs s = some (n, t)) : Leads notBlocks s t := by
  induction cfs generalizing s n with
  | nil => cases hi; exact .refl h
  | cons c cfs ih =>
    simp only [Store.clearCells, Option.bind_eq_some_iff, Option.map_eq_some_iff] at hi
    obtain ⟨⟨m, u⟩, hu, ⟨k, v⟩, hv, he⟩ := hi
    cases he
    have g := h.clearCell hu
    exact g.trans (ih g.fine hv)

theorem Fine.removeCellsOf {s t : Store} (h : Fine s) {cs : List TableCell}
    (hi : Store.removeCellsOf cs s = some t) : Leads keptKinds s t := by
  induction cs generalizing s with
  | nil => cases hi; exact .refl h
  | cons c cs ih =>
    simp only [Store.removeCellsOf, Option.bind_eq_some_iff] at hi
    obtain ⟨u, hu, v, hv, hi⟩ := hi
    have g1 : Leads keptKinds s u := by
      split at hu
      · exact (h.removeFrame' hu).mono kept_notFrames
      · cases hu; exact .refl h
    have g2 := g1.trans ((g1.fine.removeCells' hv).1.mono (by intro k; cases k <;> decide))
    exact g2.trans (ih g2.fine hi)

theorem Fine.removeCoveredTable {s t : Store} (h : Fine s) {fid tid : Nat} {cl : List Nat} {a b : Int} {x : Bool}
    (hi : s.removeCoveredTable fid cl a b tid = some (x, t)) : Leads keptKinds s t := by
  simp only [Store.removeCoveredTable] at hi
  split at hi
  · cases hi; exact .refl h
  · simp only [Option.bind_eq_some_iff] at hi
    obtain ⟨span, _, hi⟩ := hi
    split at hi
    · simp only [Option.bind_eq_some_iff, Option.map_eq_some_iff] at hi
      obtain ⟨u, hu, root, _, v, hv, w, hw, he⟩ := hi
      cases he
      have g1 := h.removeCellsOf hu
      have g2 : Leads keptKinds s v := by
        split at hv
        · exact g1.trans ((g1.fine.removeFrame' hv).mono kept_notFrames)
        · cases hv; exact g1
      exact g2.trans ((g2.fine.removeTableEntity hw).mono kept_notTables)
    · cases hi; exact .refl h

theorem Fine.removeCoveredTables {s t : Store} (h : Fine s) {fid : Nat} {ts cl : List Nat} {a b : Int} {x : Bool}
    (hi : Store.removeCoveredTables fid cl a b ts s = some (x, t)) : Leads keptKinds s t := by
  induction ts generalizing s x with
  | nil => cases hi; exact .refl h
  | cons c cfs ih =>
    simp only [Store.removeCoveredTables, Option.bind_eq_some_iff, Option.map_eq_some_iff] at hi
    obtain ⟨⟨m, u⟩, hu, ⟨k, v⟩, hv, he⟩ := hi
    cases he
    have g := h.removeCoveredTable hu
    exact g.trans (ih g.fine hv)

/-- Writing back a frame with some of its entries. -/
theorem Fine.thinFrame {s : Store} (h : Fine s) {f : Nat} {fr : Frame} (hf : s.frames f = some fr) (p : Int → Bool) :
    Grows s (s.updateFrame { fr with childOrder := fr.childOrder.filter p }) :=
  h.updateFrame (f := { fr with childOrder := fr.childOrder.filter p }) (o := fr)
    ((congrArg s.frames.get (frame_id h hf)).trans hf)
    fun j hj hp => h.orders hf j (List.mem_filter.mp hj).1 hp

theorem Fine.forgetGoneFrames {s t : Store} (h : Fine s) {f : Nat} (hi : s.forgetGoneFrames f = some t) :
    Grows s t := by
  simp only [Store.forgetGoneFrames, Option.map_eq_some_iff] at hi
  obtain ⟨fr, hf, he⟩ := hi
  cases he
  exact h.thinFrame hf _


/-- Cutting a block that may be gone already brings it back. -/
theorem Fine.deleteRange' {s t : Store} (h : Fine s) {b : Block} (hb : FitBlock s b) {so eo : Int} {n : Int}
    (hi : s.deleteRange b so eo = some (n, t)) : Grows s t := by
  simp only [Store.deleteRange] at hi
  split at hi
  · cases hi; exact .refl h
  · simp only [Option.bind_eq_some_iff, Option.map_eq_some_iff] at hi
    obtain ⟨content, _, gone, _, r, _, he⟩ := hi
    cases he
    have g1 := h.updateBlock hb
    have hin : ((s.updateBlock b).blocks b.id).isSome = true := by simp [Store.updateBlock, IdMap.insert]
    refine g1.trans (g1.fine.formats (fun k => by cases k <;> rfl) rfl ?_ ?_)
    · intro j hj
      by_cases hjb : j = b.id
      · rw [hjb]; exact hin
      · have : ((s.updateBlock b).formatRuns j).isSome = true := by
          simpa [Store.editRuns, Store.editImages, Store.withText, Store.updateBlock, IdMap.insert, hjb] using hj
        exact g1.fine.tidy.runs j this
    · intro j hj
      by_cases hjb : j = b.id
      · rw [hjb]; exact hin
      · have : ((s.updateBlock b).blockImages j).isSome = true := by
          simpa [Store.editRuns, Store.editImages, Store.withText, Store.updateBlock, IdMap.insert, hjb] using hj
        exact g1.fine.tidy.images j this

theorem Fine.cutOutside {s t : Store} (h : Fine s) {ic : Nat → Bool} {a z : Int} {fi la : Option Nat} {bs : List Block}
    (hbs : ∀ b ∈ bs, FitBlock s b) {n : Int} {gone : List Nat}
    (hi : Store.cutOutside ic a z fi la bs s = some (n, gone, t)) : Leads notBlocks s t := by
  induction bs generalizing s n gone with
  | nil => cases hi; exact .refl h
  | cons b bs ih =>
    simp only [Store.cutOutside, Option.bind_eq_some_iff] at hi
    obtain ⟨len, _, hi⟩ := hi
    split at hi
    · exact ih h (fun c hc => hbs c (.tail _ hc)) hi
    · split at hi
      · simp only [Option.bind_eq_some_iff, Option.map_eq_some_iff] at hi
        obtain ⟨⟨m, u⟩, hu, ⟨k, l, v⟩, hv, he⟩ := hi
        cases he
        have g : Leads notBlocks s u := .of (h.deleteRange' (hbs b (.head _)) hu)
        exact g.trans (ih g.fine (fun c hc => (hbs c (.tail _ hc)).later (by decide) g) hv)
      · simp only [Option.bind_eq_some_iff, Option.map_eq_some_iff] at hi
        obtain ⟨u, hu, ⟨k, l, v⟩, hv, he⟩ := hi
        cases he
        have g := (h.forgetBlock hu).leads
        exact g.trans (ih g.fine (fun c hc => (hbs c (.tail _ hc)).later (by decide) g) hv)

theorem Fine.unlistBlocks {s : Store} (h : Fine s) (gone fs : List Nat) : Grows s (Store.unlistBlocks gone fs s) := by
  induction fs generalizing s with
  | nil => exact .refl h
  | cons f fs ih =>
    simp only [Store.unlistBlocks]
    have g : Grows s (match s.frames f with
      | none => s
      | some fr =>
        let order := fr.childOrder.filter fun e => !(decide (0 ≤ e) && gone.contains e.toNat)
        if order.length = fr.childOrder.length then s else s.updateFrame { fr with childOrder := order }) := by
      split
      · exact .refl h
      · rename_i fr hf
        dsimp only
        split
        · exact .refl h
        · exact h.thinFrame hf _
    exact g.trans (ih g.fine)

theorem Fine.removeEmptyFrames {s t : Store} (h : Fine s) {f : Nat} (hi : s.removeEmptyFrames f = some t) :
    Leads notFrames s t := by
  simp only [Store.removeEmptyFrames, Option.bind_eq_some_iff] at hi
  obtain ⟨root, _, hi⟩ := hi
  split at hi
  · cases hi; exact .refl h
  · simp only [Option.bind_eq_some_iff, Option.map_eq_some_iff] at hi
    obtain ⟨u, hu, fr, hf, he⟩ := hi
    have g := h.removeFrames hu
    cases he
    exact g.trans (.of (g.fine.thinFrame hf _))

theorem Fine.removeLists {s t : Store} (h : Fine s) {ls : List Nat} (hi : Store.removeLists ls s = some t) :
    Leads (fun k => k ≠ .list) s t := by
  induction ls generalizing s with
  | nil => cases hi; exact .refl h
  | cons l ls ih =>
    simp only [Store.removeLists, Option.bind_eq_some_iff] at hi
    obtain ⟨u, hu, hi⟩ := hi
    have g := h.removeListEntity hu
    exact g.trans (ih g.fine hi)

theorem Fine.refillEmpty {s t : Store} (h : Fine s) {f : Nat} (hi : s.refillEmpty f = some t) : Grows s t := by
  simp only [Store.refillEmpty, Option.bind_eq_some_iff] at hi
  obtain ⟨ids, _, hi⟩ := hi
  split at hi
  · simp only [Option.bind_eq_some_iff, Option.map_eq_some_iff] at hi
    obtain ⟨⟨n, u⟩, hu, fr, hf, he⟩ := hi
    have m := h.createBlock rfl (by intro l hl; cases hl) hu
    have hin : n ∈ fr.blocks := by
      cases ho : s.frames f with
      | none => rw [m.absent ho] at hf; cases hf
      | some o =>
        obtain ⟨l, h1, h2, _⟩ := m.owned o ho
        rw [h1] at hf; cases hf; exact h2
    have g := m.grows.trans (m.grows.fine.updateFrame (f := { fr with childOrder := fr.childOrder ++ [(n : Int)] })
      (o := fr) ((congrArg u.frames.get (frame_id m.grows.fine hf)).trans hf) fun j hj hp => by
        rcases List.mem_append.mp hj with hj | hj
        · exact m.grows.fine.orders hf j hj hp
        · simp only [List.mem_singleton] at hj; subst hj; simpa using hin)
    cases he
    exact g.trans (g.fine.withText _)
  · cases hi; exact .refl h

theorem Fine.deleteCells {s t : Store} (h : Fine s) {doc : Document} {did fid : Nat}
    (hdoc : (s.documents did).isSome = true) (hd : doc.id = did) {bs : List Block} (hbs : ∀ b ∈ bs, FitBlock s b)
    {start stop : Int} {res : Store.DeleteTextResult}
    (hi : s.deleteCells did fid doc bs start stop = some (t, res)) : Leads lastKinds s t := by
  simp only [Store.deleteCells, Option.bind_eq_some_iff, Option.map_eq_some_iff] at hi
  obtain ⟨touched, _, ⟨n1, s1⟩, h1, ⟨x, s2⟩, h2, s3, h3, outside, _, cut, _, ⟨n2, gone, s4⟩, h4, s5, h5, s6, h6, s7,
    h7, he⟩ := hi
  have g1 := (h.clearCells h1).mono kept_notBlocks
  have g2 := g1.trans (g1.fine.removeCoveredTables h2)
  have g3 : Leads keptKinds s s3 := by
    split at h3
    · exact g2.trans (.of (g2.fine.forgetGoneFrames h3))
    · cases h3; exact g2
  have g4 := g3.trans ((g3.fine.cutOutside (fun b hb => (hbs b hb).later (by decide) g3) h4).mono kept_notBlocks)
  have g4' : Leads keptKinds s (if gone = [] then s4 else Store.unlistBlocks gone (s4.docFrames did) s4) := by
    split
    · exact g4
    · exact g4.trans (.of (g4.fine.unlistBlocks _ _))
  have g5 := g4'.trans ((g4'.fine.removeEmptyFrames h5).mono kept_notFrames)
  have g6 := (g5.mono last_kept).trans ((g5.fine.removeLists h6).mono (by intro k; cases k <;> decide))
  have g7 := g6.trans (.of (g6.fine.refillEmpty h7))
  cases he
  exact g7.trans (.of (g7.fine.updateDocument hd (g7.keep .document did rfl hdoc)))

theorem Fine.deleteSelection {s t : Store} (h : Fine s) {p a : Int} {res : Store.DeleteTextResult} {u : Snapshot}
    (hi : s.deleteSelection p a = some (t, res, u)) : Leads lastKinds s t ∧ u = s.snapshot := by
  simp only [Store.deleteSelection, Option.bind_eq_some_iff] at hi
  obtain ⟨did, hdid, hi⟩ := hi
  split at hi
  · cases hi; exact ⟨.refl h, rfl⟩
  · simp only [Option.bind_eq_some_iff, Option.map_eq_some_iff] at hi
    obtain ⟨doc, hdoc, fid, hfid, ids, hids, root, hroot, ⟨bs, ch⟩, href, ⟨b1, i1, so⟩, hb1, cross, hcross,
      ⟨t', res'⟩, hr, he⟩ := hi
    cases he
    obtain ⟨hbs, hch⟩ := refresh_here (h.hereBlocks ids) href
    have g1 := h.updateBlocks ch fun b hb => (hch b hb).fit
    have hbs' : ∀ b ∈ sortByKey Block.documentPosition bs, Here (s.updateBlocks ch) b :=
      fun b hb => (hbs b (mem_sortByKey.mp hb)).later g1
    have hd' := g1.keep .document did rfl (by rw [show s.tab .document did = _ from hdoc]; rfl)
    refine ⟨(Leads.of g1).trans ?_, rfl⟩
    split at hr
    · exact g1.fine.deleteCells hd' (doc_id h hdoc) (fun b hb => (hbs' b hb).fit) hr
    · simp only [Option.bind_eq_some_iff] at hr
      obtain ⟨⟨b2, i2, eo⟩, hb2, hr⟩ := hr
      dsimp only at hr
      split at hr
      · exact .of (g1.fine.deleteSame hd' (doc_id h hdoc) hbs' (find_is_here hbs' hb1) hr)
      · exact (g1.fine.deleteAcross hd' (doc_id h hdoc) hbs' (find_is_here hbs' hb1) hr).mono
          (by intro k; cases k <;> decide)

end Verif
