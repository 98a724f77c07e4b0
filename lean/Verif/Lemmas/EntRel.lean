import Verif.Lemmas.EntExec
/-
What the calls do with relationships.
-/
namespace Verif
variable {s : Store}

theorem readRel_of_content {s t : Store} (h : s.content = t.content) (r : RelField) (i : Nat) :
    s.readRel r i = t.readRel r i := by
  unfold Store.readRel; rw [Store.tab_of_content h]

theorem insertIdsAt_putIn (l : List Nat) (index : Int) (ids : List Nat) :
    PutIn l index ids (insertIdsAt l index ids) := by
  unfold insertIdsAt
  split
  · rename_i h
    refine ⟨_, _, (List.take_append_drop index.toNat l).symm, rfl, ?_, ?_⟩
    · intro h1 h2
      rw [List.length_take]
      omega
    · intro h3; omega
  · rename_i h
    refine ⟨l, [], by simp, by simp, ?_, fun _ => rfl⟩
    intro h1 h2
    omega

theorem reorderIds_putIn (l moved : List Nat) (index : Int) :
    (moved = [] → reorderIds l moved index = l) ∧
    PutIn (l.filter fun i => !moved.contains i) index moved (reorderIds l moved index) := by
  unfold reorderIds
  constructor
  · rintro rfl; rfl
  · split
    · rename_i h
      have : moved = [] := by simpa using h
      subst this
      have e : l.filter (fun i => !([] : List Nat).contains i) = l := by simp
      rw [e]
      refine ⟨l.take (if index < 0 ∨ index > (l.length : Int) then l.length else index.toNat),
        l.drop (if index < 0 ∨ index > (l.length : Int) then l.length else index.toNat), by simp, by simp, ?_, ?_⟩
      · intro h1 h2
        rw [if_neg (by omega), List.length_take]
        omega
      · intro h3
        rw [if_pos h3]
        simp
    · refine ⟨_, _, (List.take_append_drop _ _).symm, rfl, ?_, ?_⟩
      · intro h1 h2
        rw [if_neg (by omega), List.length_take]
        omega
      · intro h3
        rw [if_pos h3]
        simp

theorem read_write (r : RelField) (e : Ent r.left) (ids : List Nat) (h0 : 0 ∉ ids) :
    r.read (r.write e ids) = if r.single then ids.take 1 else ids := by
  cases r <;> simp only [RelField.read, RelField.write, RelField.single, if_true] <;> try rfl
  · cases ids with
    | nil => rfl
    | cons a l =>
      have : a ≠ 0 := by rintro rfl; exact h0 (.head _)
      simp [this]
  all_goals (cases ids <;> rfl)

theorem itself_write (r : RelField) (e : Ent r.left) (ids : List Nat) :
    itself r.left (r.write e ids) = itself r.left e := by cases r <;> rfl

theorem read_write_ne {r r' : RelField} (hl : r'.left = r.left) (hn : r' ≠ r) (e : Ent r.left) (ids : List Nat) :
    r'.read (hl ▸ r.write e ids) = r'.read (hl ▸ e) := by
  cases r <;> cases r' <;> first | rfl | exact absurd rfl hn | cases hl

theorem readRel_withTab_same (s : Store) (r : RelField) (o i : Nat) (e : Ent r.left) (ids : List Nat)
    (h0 : 0 ∉ ids) :
    (s.withTab r.left ((s.tab r.left).insert o (r.write e ids))).readRel r i =
      if i = o then (if r.single then ids.take 1 else ids) else s.readRel r i := by
  unfold Store.readRel
  rw [Store.tab_withTab]
  simp only [IdMap.insert]
  by_cases h : i = o
  · subst h; simp [read_write r e ids h0]
  · simp [h]

theorem readRel_withTab_ne (s : Store) {r r' : RelField} (hn : r' ≠ r) {o : Nat} (i : Nat) {e : Ent r.left}
    (he : s.tab r.left o = some e) (ids : List Nat) :
    (s.withTab r.left ((s.tab r.left).insert o (r.write e ids))).readRel r' i = s.readRel r' i := by
  unfold Store.readRel
  by_cases hl : r'.left = r.left
  · by_cases h : i = o
    · subst h
      cases r <;> cases r' <;> first | exact absurd rfl hn | (cases hl) | skip
      all_goals (simp only [RelField.left, Store.tab, Store.withTab, IdMap.insert] at he ⊢; simp [he, RelField.read, RelField.write])
    · cases r <;> cases r' <;> first | exact absurd rfl hn | (cases hl) | skip
      all_goals (simp only [RelField.left, Store.tab, Store.withTab, IdMap.insert]; simp [h])
  · rw [Store.tab_withTab_ne _ _ hl]

theorem keepEnt_itself (k : EKind) (e o : Ent k) : itself k (keepEnt k e o) = itself k e := by
  cases k <;> rfl

theorem withId_self (k : EKind) (e : Ent k) (h : entId k e = 0) (i : Nat) :
    entWithId k (entWithId k e i) 0 = e := by
  cases k <;> (simp only [entId] at h; simp only [entWithId]; rw [← h])

theorem insertNew_shape {k : EKind} {e f : Ent k} {t : Store} (h0 : entId k e = 0)
    (h : s.insertNew k e = some (f, t)) : entWithId k f 0 = e := by
  unfold Store.insertNew at h
  simp only [h0, if_true] at h
  split at h
  · cases h; exact withId_self k e h0 _
  · cases h

theorem insertNews_shape {k : EKind} : ∀ (es es' : List (Ent k)) (s t : Store), (∀ e ∈ es, entId k e = 0) →
    Store.insertNews k es s = some (es', t) → es'.map (fun f => entWithId k f 0) = es := by
  intro es
  induction es with
  | nil => intro es' s t _ h; simp only [Store.insertNews] at h; cases h; rfl
  | cons e es ih =>
    intro es' s t h0 h
    simp only [Store.insertNews, Option.bind_eq_some_iff, Option.map_eq_some_iff] at h
    obtain ⟨⟨f, u⟩, h1, ⟨es2, v⟩, h2, h3⟩ := h
    cases h3
    rw [List.map_cons, insertNew_shape (h0 e (.head _)) h1, ih _ _ _ (fun e he => h0 e (.tail _ he)) h2]

theorem setRel_rest {s t : Store} {r : RelField} {o : Nat} {ids : List Nat} (h : s.setRel r o ids = some t) :
    t.rope = s.rope ∧ t.formatRuns = s.formatRuns ∧ t.blockImages = s.blockImages ∧
      t.blockOffsets = s.blockOffsets := by
  have h3 := (setRel_some h).2.2
  split at h3
  · obtain ⟨r1, r2, r3, r4⟩ := withTab_rest s r.left ((s.tab r.left).insert o (r.write (by assumption) ids))
    subst h3
    exact ⟨r3, r1, r2, r4⟩
  · subst h3; exact ⟨rfl, rfl, rfl, rfl⟩

theorem setRel_read {s t : Store} (hs : Tidy s) {r : RelField} {o : Nat} {ids : List Nat}
    (h : s.setRel r o ids = some t) :
    ((s.tab r.left o).isSome = true → t.readRel r o = if r.single then ids.take 1 else ids) ∧
    (∀ r' i, (r', i) ≠ (r, o) → t.readRel r' i = s.readRel r' i) ∧
    ∀ i, (t.tab r.left i).map (itself r.left) = (s.tab r.left i).map (itself r.left) := by
  obtain ⟨h1, h2, h3⟩ := setRel_some h
  have h0 : 0 ∉ ids := by
    intro h0
    have := h1 0 h0
    rw [hs.positive] at this
    cases this
  cases he : s.tab r.left o with
  | none =>
    rw [he] at h3
    subst h3
    exact ⟨by simp, fun _ _ _ => rfl, fun _ => rfl⟩
  | some e =>
    rw [he] at h3
    subst h3
    refine ⟨fun _ => ?_, ?_, ?_⟩
    · rw [readRel_withTab_same _ _ _ _ _ _ h0, if_pos rfl]
    · intro r' i hne
      by_cases hr : r' = r
      · subst hr
        rw [readRel_withTab_same _ _ _ _ _ _ h0, if_neg]
        rintro rfl; exact hne rfl
      · exact readRel_withTab_ne s hr i he ids
    · intro i
      rw [Store.tab_withTab]
      simp only [IdMap.insert]
      by_cases hi : i = o
      · subst hi; simp [he, itself_write]
      · simp [hi]

theorem create_effect (ht : Tidy s) (ha : Ahead s) {k : EKind} (hk : k ≠ .root) (hd : k ≠ .document)
    {r : RelField} (hr : k.owner = some r) {es : List (Ent k)} {owner : Nat} {index : Int}
    (hv : ∀ e ∈ es, entId k e = 0 ∧ owns k e = [] ∧ RefsOk s k e) :
    ∃ c t, CreateCmd.exec k es owner index s = (some c, t) ∧ Created s k es r owner index c.created t := by
  obtain ⟨c, t, e1, ⟨u, e2, e3⟩, _⟩ := exec_step (α := CreateCmd k)
    (f := fun s =>
      let prev := match k.owner with
        | some r => s.readRel r owner
        | none => []
      (s.createIn k es owner index).map fun p =>
        (if k = EKind.document then
          { created := p.1, owner := some owner, index := index, existing := prev
            displaced := if prev.isEmpty then none else some s.snapshot }
        else { created := p.1, owner := some owner, index := index, previous := some prev }, p.2))
    (Q := fun c y => ∃ u : Store, u.content = y ∧ Created s k es r owner index c.created u) ht ha (by
    intro s1 hc hn ht1 ha1
    have htab := Store.tab_of_content hc
    obtain ⟨es', t, e1, e2, e3, e4, e5, e6, e7, e8⟩ := insertNews_facts ht1 ha1 hk (es := es) (by
      intro e he
      obtain ⟨a, b, c⟩ := hv e he
      exact ⟨a, b, c.congr fun k => (htab k).symm⟩)
    have hshape := insertNews_shape es es' s1 t (fun e he => (hv e he).1) e1
    obtain ⟨hr1, hr2⟩ := owner_right hr
    have hread : t.readRel r owner = s1.readRel r owner := by
      unfold Store.readRel; rw [e3.others r.left hr2]
    have hall : ∀ i ∈ insertIdsAt (s1.readRel r owner) index (es'.map (entId k)),
        (t.tab r.right i).isSome = true := by
      intro i hi
      rw [hr1]
      rcases insertIdsAt_mem.mp hi with h | h
      · exact e3.isSome (hr1 ▸ ht1.linked h)
      · obtain ⟨f, hf, rfl⟩ := List.mem_map.mp h
        rw [e3.new f hf]; rfl
    have hrd : r ≠ .rootDocument := by
      rintro rfl
      exact hd hr1.symm
    obtain ⟨u, hset⟩ : ∃ u, t.setRel r owner
        (insertIdsAt (s1.readRel r owner) index (es'.map (entId k))) = some u :=
      ⟨_, setRel_ok hall (fun h => absurd h hrd)⟩
    have htid : Tidy u := setRel_tidy e5 (by
      intro hrb
      refine ⟨insertIdsAt_nodup (ht1.blocksOnce hrb owner) e2.nodup fun i hi hm => ?_, fun i hi => ?_⟩
      · obtain ⟨f, hf, rfl⟩ := List.mem_map.mp hi
        have := ht1.linked hm
        rw [hr1, e2.absent f hf] at this
        cases this
      · rw [hread] at hi
        exact insertIdsAt_mem.mpr (.inl hi)) hset
    simp only [hr, Store.createIn, e1, Option.bind_some, hread, if_neg hd, hset, Option.map_some]
    refine ⟨_, u, rfl, ⟨u, rfl, ?_⟩, htid, setRel_ahead e6 hset, by rw [setRel_counters hset]; exact e7⟩
    obtain ⟨w1, w2, w3⟩ := setRel_read e5 hset
    obtain ⟨q1, q2, q3, q4⟩ := setRel_rest hset
    have hs1 : s1.rope = s.rope ∧ s1.formatRuns = s.formatRuns ∧ s1.blockImages = s.blockImages := by
      rw [Store.eq_over hc]; exact ⟨rfl, rfl, rfl⟩
    refine ⟨hshape, e2.nodup, ?_, ?_, ?_, ?_, ?_, ?_, ?_, q1.trans (e3.rope.trans hs1.1),
      q2.trans (e3.runs.trans hs1.2.1), q3.trans (e3.images.trans hs1.2.2)⟩
    · intro e he
      exact ⟨e2.pos e he, by rw [← htab]; exact e2.absent e he⟩
    · intro e he
      rw [setRel_other hset hr2.symm]; exact e3.new e he
    · intro i hi
      rw [setRel_other hset hr2.symm, e3.old i hi, htab]
    · intro ho
      have hs : r.single = false := by
        cases k <;> simp only [EKind.owner, Option.some.injEq, reduceCtorEq] at hr <;> subst hr <;>
          first | rfl | exact absurd rfl hd
      have : u.readRel r owner = _ := w1 (by rw [e3.others r.left hr2, htab]; exact ho)
      rw [this, hs, readRel_of_content hc]
      exact insertIdsAt_putIn _ _ _
    · intro r' o hl hne
      rw [w2 r' o hne]
      unfold Store.readRel
      rw [e3.others r'.left hl, htab]
    · intro o
      rw [w3, e3.others r.left hr2, htab]
    · intro k' h1 h2
      rw [setRel_other hset h2, e3.others k' h1, htab])
  refine ⟨c, t, e1, ?_⟩
  obtain ⟨a1, a2, a3, a4, a5, a6, a7, a8, a9, a10, a11, a12⟩ := e3
  rw [Store.eq_over e2] at a4 a5 a6 a7 a8 a9 a10 a11 a12
  simp only [Store.over_tab, Store.readRel_over] at a4 a5 a6 a7 a8 a9
  exact ⟨a1, a2, a3, a4, a5, a6, a7, a8, a9, a10, a11, a12⟩

end Verif
