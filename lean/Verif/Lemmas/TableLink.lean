import Verif.Lemmas.TableText
/- Linking a new table into its frame, and the stored positions. -/
namespace Verif
variable {s s' : Store} {d : Document} {f : Nat}
open Store

theorem adopt_foldl (a : Nat) (gs : List Nat) : ∀ {s : Store}, (∀ g ∈ gs, ∀ x, s.frames g = some x → x.id = g) →
    (∀ i, (gs.foldl (adopt a) s).frames i =
      if i ∈ gs then (s.frames i).map (fun x : Frame => { x with parentFrame := some a }) else s.frames i) ∧
    ∃ m, gs.foldl (adopt a) s = { s with frames := m } := by
  induction gs with
  | nil => intro s _; exact ⟨by intro i; simp, ⟨s.frames, rfl⟩⟩
  | cons g gs ih =>
    intro s h
    have hone : (∀ i, (adopt a s g).frames i = if i = g then (s.frames i).map
        (fun x : Frame => { x with parentFrame := some a }) else s.frames i) ∧ ∃ m, adopt a s g = { s with frames := m } := by
      unfold adopt
      cases hg : s.frames g with
      | none =>
        refine ⟨?_, s.frames, rfl⟩
        intro i
        by_cases e : i = g
        · subst e; simp [hg]
        · simp [e]
      | some x =>
        refine ⟨?_, _, rfl⟩
        intro i
        have hx := h g (by simp) x hg
        simp only [Store.updateFrameRel, IdMap.insert_get, hx]
        by_cases e : i = g
        · rw [if_pos e, if_pos e, e, hg]; simp [hx]
        · rw [if_neg e, if_neg e]
    have hids : ∀ g' ∈ gs, ∀ x, (adopt a s g).frames g' = some x → x.id = g' := by
      intro g' hg' x hx
      rw [hone.1] at hx
      split at hx
      · rw [Option.map_eq_some_iff] at hx
        obtain ⟨y, hy, rfl⟩ := hx
        exact h g' (by simp [hg']) y hy
      · exact h g' (by simp [hg']) x hx
    obtain ⟨k1, m, k2⟩ := ih hids
    obtain ⟨m1, k3⟩ := hone.2
    refine ⟨?_, m, ?_⟩
    · intro i
      rw [List.foldl_cons, k1, hone.1]
      by_cases e1 : i = g
      · subst e1
        simp only [if_true, List.mem_cons, true_or]
        split
        · cases s.frames i <;> rfl
        · rfl
      · simp only [e1, if_false, List.mem_cons, false_or]
    · rw [List.foldl_cons, k2, k3]

/-- What `linkTable` does. -/
theorem linkTable_new {fr : Frame} {tid idx : Nat} {gs : List Nat} (hd : s.documents d.id = some d)
    (hall : ∀ i ∈ d.frames, (s.frames i).isSome) (hf : s.frames f = some fr) (hfid : fr.id = f)
    (hfn : f < s.next "frame") (hgs : ∀ g ∈ gs, g ≠ f ∧ g < s.next "frame" ∧ ∀ x, s.frames g = some x → x.id = g) :
    ∃ s1, s.linkTable d.id tid f idx gs = some s1 ∧
      s1.frames (s.next "frame") = some { id := s.next "frame", parentFrame := some f, table := some tid } ∧
      s1.frames f = some { fr with
        childOrder := fr.childOrder.insertIdx (min idx fr.childOrder.length) (-((s.next "frame" : Nat) : Int)) } ∧
      (∀ g ∈ gs, s1.frames g = (s.frames g).map fun x : Frame => { x with parentFrame := some (s.next "frame") }) ∧
      (∀ i, i ≠ s.next "frame" → i ≠ f → i ∉ gs → s1.frames i = s.frames i) ∧
      (∀ i, s1.documents i = if i = d.id then some { d with frames := d.frames ++ [s.next "frame"] } else s.documents i) ∧
      s1.next "frame" = s.next "frame" + 1 ∧ s1.next "block" = s.next "block" ∧
      s1.next "table_cell" = s.next "table_cell" ∧ s1.next "table" = s.next "table" ∧
      s1.text = s.text ∧ s1.formatRuns = s.formatRuns ∧ s1.blockImages = s.blockImages ∧ s1.roots = s.roots ∧
      s1.lists = s.lists ∧ s1.tables = s.tables ∧ s1.tableCells = s.tableCells ∧ s1.blocks = s.blocks := by
  unfold Store.linkTable
  rw [createFrame_new hd rfl hall, Option.bind_some]
  generalize hs1 : ({ s with
      counters := (s.nextId "frame").2.counters
      frames := s.frames.insert (s.next "frame")
        { ({ parentFrame := some f, table := some tid } : Frame) with id := s.next "frame" }
      documents := s.documents.insert d.id { d with frames := d.frames ++ [s.next "frame"] } } : Store) = s1
  have hf1 : ∀ i, s1.frames i = if i = s.next "frame" then
      some { id := s.next "frame", parentFrame := some f, table := some tid } else s.frames i := by
    intro i; rw [← hs1]; simp
  obtain ⟨k1, m, k2⟩ := adopt_foldl (s.next "frame") gs (s := s1) (by
    intro g hg x hx
    rw [hf1, if_neg (by have := (hgs g hg).2.1; omega)] at hx
    exact (hgs g hg).2.2 x hx)
  generalize hs2 : gs.foldl (adopt (s.next "frame")) s1 = s2 at k1 k2
  have hff : s2.frames f = some fr := by
    rw [k1, if_neg (fun hm => (hgs f hm).1 rfl), hf1, if_neg (by omega)]; exact hf
  simp only [hs2, hff, Option.map_some]
  have hfr : ∀ i, (s2.updateFrame { fr with
      childOrder := fr.childOrder.insertIdx (min idx fr.childOrder.length) (-((s.next "frame" : Nat) : Int)) }).frames i =
      if i = f then some { fr with
        childOrder := fr.childOrder.insertIdx (min idx fr.childOrder.length) (-((s.next "frame" : Nat) : Int)) }
      else s2.frames i := by
    intro i
    simp only [Store.updateFrame, IdMap.insert_get, hfid, hff, Store.keepFrame]
  refine ⟨_, rfl, ?_, ?_, ?_, ?_, ?_, ?_, ?_, ?_, ?_, ?_, ?_, ?_, ?_, ?_, ?_, ?_, ?_⟩
  · rw [hfr, if_neg (by omega), k1, if_neg (fun hm => by have := (hgs _ hm).2.1; omega), hf1, if_pos rfl]
  · rw [hfr, if_pos rfl]
  · intro g hg
    have := hgs g hg
    rw [hfr, if_neg this.1, k1, if_pos hg, hf1, if_neg (by omega)]
  · intro i h1 h2 h3
    rw [hfr, if_neg h2, k1, if_neg h3, hf1, if_neg h1]
  · intro i
    simp only [Store.updateFrame]
    rw [k2, ← hs1]; simp
  · rw [k2, ← hs1]; exact next_self "frame" s
  · rw [k2, ← hs1]; exact next_other (a := "frame") (b := "block") (by decide) s
  · rw [k2, ← hs1]; exact next_other (a := "frame") (b := "table_cell") (by decide) s
  · rw [k2, ← hs1]; exact next_other (a := "frame") (b := "table") (by decide) s
  all_goals (rw [k2, ← hs1]; rfl)

theorem updateBlocks_get (bs : List Block) : ∀ {s : Store}, (bs.map Block.id).Nodup →
    (∀ b ∈ bs, (s.updateBlocks bs).blocks b.id = some (keepBlock b (s.blocks b.id))) ∧
    (∀ i, i ∉ bs.map Block.id → (s.updateBlocks bs).blocks i = s.blocks i) ∧
    ∃ m, s.updateBlocks bs = { s with blocks := m } := by
  induction bs with
  | nil => intro s _; exact ⟨by simp, by intros; rfl, s.blocks, rfl⟩
  | cons b bs ih =>
    intro s hn
    rw [List.map_cons, List.nodup_cons] at hn
    obtain ⟨k1, k2, m, k3⟩ := ih (s := s.updateBlock b) hn.2
    have e : s.updateBlocks (b :: bs) = (s.updateBlock b).updateBlocks bs := rfl
    rw [e]
    refine ⟨?_, ?_, m, by rw [k3]; rfl⟩
    · intro x hx
      rcases List.mem_cons.mp hx with rfl | hx
      · rw [k2 _ hn.1]; simp [Store.updateBlock]
      · rw [k1 x hx]
        have : x.id ≠ b.id := fun e => hn.1 (e ▸ List.mem_map_of_mem hx)
        simp [Store.updateBlock, this]
    · intro i hi
      simp only [List.map_cons, List.mem_cons, not_or] at hi
      rw [k2 i hi.2]
      simp [Store.updateBlock, hi.1]

theorem shiftFrom_get {bs : List Block} {start n : Int} (hn : (bs.map Block.id).Nodup)
    (hb : ∀ b ∈ bs, s.blocks b.id = some b) :
    (∀ b ∈ bs, (s.shiftFrom bs start n).blocks b.id =
      some { b with documentPosition := if b.documentPosition ≥ start then b.documentPosition + n else b.documentPosition }) ∧
    (∀ i, i ∉ bs.map Block.id → (s.shiftFrom bs start n).blocks i = s.blocks i) ∧
    ∃ m, s.shiftFrom bs start n = { s with blocks := m } := by
  unfold Store.shiftFrom
  have e : (((bs.filter fun b => decide (b.documentPosition ≥ start)).map fun b =>
      ({ b with documentPosition := b.documentPosition + n } : Block)).map Block.id) =
      (bs.filter fun b => decide (b.documentPosition ≥ start)).map Block.id := by simp [Function.comp_def]
  have hsub : ((bs.filter fun b => decide (b.documentPosition ≥ start)).map Block.id).Sublist (bs.map Block.id) :=
    List.filter_sublist.map _
  obtain ⟨k1, k2, k3⟩ := updateBlocks_get (s := s) ((bs.filter fun b => decide (b.documentPosition ≥ start)).map fun b =>
      ({ b with documentPosition := b.documentPosition + n } : Block)) (by rw [e]; exact hsub.nodup hn)
  refine ⟨?_, ?_, k3⟩
  · intro b hbm
    by_cases hp : b.documentPosition ≥ start
    · have := k1 _ (List.mem_map.mpr ⟨b, List.mem_filter.mpr ⟨hbm, by simpa using hp⟩, rfl⟩)
      simp only [if_pos hp]
      rw [show (s.updateBlocks _).blocks b.id = _ from this]
      simp [hb b hbm, keepBlock]
    · rw [k2, hb b hbm, if_neg hp]
      rw [e]
      intro hm
      obtain ⟨x, hx, hxe⟩ := List.mem_map.mp hm
      rw [List.mem_filter] at hx
      have h1 := hb x hx.1
      rw [hxe, hb b hbm] at h1
      cases h1
      simp at hx; omega
  · intro i hi
    apply k2
    rw [e]
    exact fun hm => hi (hsub.subset hm)

theorem placed_nodup {r : Int} {qs : List SPara} (h : (qs.map SPara.id).Nodup) : ((placed r qs).map Block.id).Nodup := by
  rw [placed_ids]; exact h

theorem mem_placed {r : Int} {qs : List SPara} {x : Block} (h : x ∈ placed r qs) :
    ∃ L p R, qs = L ++ p :: R ∧ x = p.entity (r + charsBefore (paras L)) := by
  induction qs generalizing r with
  | nil => simp [placed] at h
  | cons q qs ih =>
    simp only [placed, List.mem_cons] at h
    rcases h with rfl | h
    · exact ⟨[], q, qs, rfl, by simp⟩
    · obtain ⟨L, p, R, e, hx⟩ := ih h
      refine ⟨q :: L, p, R, by simp [e], ?_⟩
      rw [hx, charsBefore_paras_cons]
      simp only [SPara.text, List.length_map]
      congr 1
      push_cast; omega

theorem placed_has {r : Int} (L R : List SPara) (p : SPara) :
    p.entity (r + charsBefore (paras L)) ∈ placed r (L ++ p :: R) := by
  rw [placed_append]
  simp [placed]

theorem Carries.placed_stored {L : List Para} {ps : List SPara} {ts : List Nat} (h : Carries s L ps ts) (hp : Placed s ps) :
    ∀ b ∈ placed 0 ps, s.blocks b.id = some b := by
  intro b hb
  obtain ⟨A, p, B, e, rfl⟩ := mem_placed hb
  obtain ⟨x, h1, h2⟩ := hp A p B e
  have h3 := h.stored (p := p) (by rw [e]; simp)
  rw [h1] at h3
  simp only [Option.some.injEq] at h3
  show s.blocks p.id = _
  rw [h1, h3]
  simp only [Store.storedPos, h1, Option.map_some, Option.getD_some]
  congr 2
  rw [h2]; simp

end Verif
