import Verif.Lemmas.EntHistory
/-
What each entity command does when it is first run.
-/
namespace Verif
variable {s : Store}

/-- What is to be shown of the work done in the transaction. -/
theorem exec_step {α : Type} {f : Store → Option (α × Store)} {s : Store} {Q : α → Snapshot → Prop}
    (ht : Tidy s) (ha : Ahead s)
    (h : ∀ s1 : Store, s1.content = s.content → s1.counters = s.counters → Tidy s1 → Ahead s1 →
      ∃ a u, f s1 = some (a, u) ∧ Q a u.content ∧ Tidy u ∧ Ahead u ∧ CountersLe s1.counters u.counters) :
    ∃ a t, s.inTx f = (some a, t) ∧ Q a t.content ∧ Tidy t ∧ Ahead t ∧
      CountersLe s.counters t.counters := by
  obtain ⟨a, u, h1, h2, h3, h4, h5⟩ := h s.beginWrite.2 rfl rfl (Tidy.congr (s := s) rfl ht)
    (Ahead.congr (s := s) rfl rfl ha)
  obtain ⟨t, e1, e2, e3⟩ := Store.inTx_some h1
  exact ⟨a, t, e1, e2 ▸ h2, h3.congr e2.symm, h4.congr e2.symm e3.symm, e3 ▸ h5⟩

theorem CountersLe.refl (c : String → Option Nat) : CountersLe c c := fun _ => Nat.le_refl _

theorem remove_exec (ht : Tidy s) (ha : Ahead s) {k : EKind} {ids : List Nat}
    (hv : ∀ i ∈ ids, (s.tab k i).isSome = true) :
    ∃ c t, RemoveCmd.exec k ids s = (some c, t) ∧
      (∃ p is, c = ⟨some p, some is⟩ ∧ p.content = s.content ∧ Removes k is s.content t.content) ∧
      Tidy t ∧ Ahead t ∧ CountersLe s.counters t.counters := by
  refine exec_step (Q := fun c y => ∃ p is, c = (⟨some p, some is⟩ : RemoveCmd) ∧ p.content = s.content ∧
    Removes k is s.content y) ht ha ?_
  intro s1 hc hn ht1 ha1
  obtain ⟨g, t, e, r⟩ := removeEnts_spec ht1 k ids
  refine ⟨_, t, ?_, ⟨_, _, rfl, hc, hc ▸ Removes.of e⟩, ht1.forgot r.forgot, r.forgot.ahead ha1,
    fun k' => by rw [r.forgot.counters]; exact Nat.le_refl _⟩
  rw [if_pos (by rw [List.all_eq_true, Store.tab_of_content hc]; exact hv), e]
  rfl

theorem update_exec (ht : Tidy s) (ha : Ahead s) {rels : Bool} {k : EKind} (hk : k ≠ .root)
    {es : List (Ent k)}
    (hv : ∀ e ∈ es, ∃ o, s.tab k (entId k e) = some o ∧ RefsOk s k (if rels then e else keepEnt k e o)) :
    ∃ c t, updateExec rels k es s = (some c, t) ∧
      (∃ old new, c = ⟨[old], []⟩ ∧ Swap rels k s.content t.content old new) ∧
      Tidy t ∧ Ahead t ∧ CountersLe s.counters t.counters := by
  refine exec_step (Q := fun c y => ∃ old new, c = (⟨[old], []⟩ : EntStacks k) ∧ Swap rels k s.content y old new) ht ha ?_
  intro s1 hc hn ht1 ha1
  have htab := Store.tab_of_content hc
  have hv1 : ∀ e ∈ es, ∃ o, s1.tab k (entId k e) = some o ∧
      RefsOk s1 k (if rels then e else keepEnt k e o) := by
    intro e he
    obtain ⟨o, a, b⟩ := hv e he
    exact ⟨o, by rw [htab]; exact a, b.congr fun k => (htab k).symm⟩
  have hids : ∀ i ∈ es.map (entId k), ∃ e, s1.tab k i = some e ∧ entId k e = i := by
    intro i hi
    obtain ⟨e, he, rfl⟩ := List.mem_map.mp hi
    obtain ⟨o, a, _⟩ := hv1 e he
    exact ⟨o, a, ht1.keyed _ _ _ a⟩
  obtain ⟨d, hr⟩ := writeEnts_differ (rels := rels) (s := s1) (ids := es.map (entId k)) es
    (fun e he => List.mem_map_of_mem he)
    (fun e he o ho => by
      obtain ⟨o', a, b⟩ := hv1 e he
      rw [ho] at a; cases a; exact b)
    s1 (Differ.refl hids) (fun i f hf => ht1.refs k i f hf)
  have hids' : ∀ i ∈ es.map (entId k), ∃ e, (s1.writeEnts rels k es).tab k i = some e ∧ entId k e = i := by
    intro i hi
    obtain ⟨e, f, a, b, c, d, _⟩ := d.at_ i hi
    exact ⟨f, b, d⟩
  refine ⟨_, s1.writeEnts rels k es, ?_, ⟨s1.entsOf k (es.map (entId k)), (s1.writeEnts rels k es).entsOf k (es.map (entId k)), rfl, ?_⟩,
    d.tidy hk ht1 hr, d.ahead (writeEnts_counters ..) ha1,
    fun k' => by rw [writeEnts_counters]; exact Nat.le_refl _⟩
  · rw [if_pos]
    rw [List.all_eq_true]
    intro e he
    obtain ⟨o, a, _⟩ := hv1 e he
    simp [a]
  · refine ⟨?_, ?_, ?_, ?_⟩
    · intro v hvc
      have := d.back
      rw [Store.eq_over hvc, writeEnts_over, Store.over_content, this, hc]
    · intro v hvc
      have := d.symm.back
      rw [Store.eq_over (hvc.trans hc.symm), writeEnts_over, Store.over_content, this]
    · intro v hvc
      rw [entsOf_ids hids']
      simp only [Store.entsOf, Store.tab_of_content (hvc.trans hc.symm)]
    · intro v hvc
      rw [entsOf_ids hids]
      simp only [Store.entsOf, Store.tab_of_content hvc]

/-- What `insertNews` does with new entities. -/
theorem insertNews_facts (ht : Tidy s) (ha : Ahead s) {k : EKind} (hk : k ≠ .root) {es : List (Ent k)}
    (hv : ∀ e ∈ es, entId k e = 0 ∧ owns k e = [] ∧ RefsOk s k e) :
    ∃ es' t, Store.insertNews k es s = some (es', t) ∧ Fresh s k es' ∧ Added s k es' t ∧
      Inserts k es' s.content t.content ∧ Tidy t ∧ Ahead t ∧ CountersLe s.counters t.counters ∧
      es'.length = es.length := by
  obtain ⟨es', c, e1, e2, e3, e4, e5, _⟩ := insertNews_new hk es s ha hv
  have had := addAll_added k es' s e2.nodup e2.absent
  have had' : Added s k es' ((Store.addAll k es' s).withCounters c) := Added.congr (s := s) (t := Store.addAll k es' s) rfl rfl had
  refine ⟨es', _, e1, e2, had', ?_, had'.tidy hk ht e2, e5, e3, e4⟩
  intro v hv
  refine ⟨v.over (Store.addAll k es' s), ?_, rfl, rfl⟩
  rw [insertNews_again hk es' v e2.nodup]
  · conv => lhs; rw [Store.eq_over hv, Store.addAll_over]
  · intro e he
    rw [Store.tab_of_content hv]
    exact ⟨e2.pos e he, e2.absent e he⟩
where
  insertNews_again := @Store.insertNews_again

theorem zero_notin {k : EKind} {es : List (Ent k)} (h : Fresh s k es) : 0 ∉ es.map (entId k) := by
  intro hm
  obtain ⟨e, he, h0⟩ := List.mem_map.mp hm
  exact h.pos e he h0

/-- Removing what was created gives the content before. -/
theorem removes_created {u : Store} (hu : Tidy u) {k : EKind} {es : List (Ent k)}
    (hf : Fresh s k es) (hb : ∀ i ∈ es.map (entId k), ∀ e, u.tab k i = some e → owns k e = [])
    (hback : ∃ v : Store, v.content = u.content ∧ ∀ g, OnlyNew g k (es.map (entId k)) → Forgot g v s) :
    Removes k (es.map (entId k)) u.content s.content := by
  obtain ⟨v, hv, hback⟩ := hback
  obtain ⟨t, g, e1, e2, e3⟩ := removeEnts_bare (hu.congr hv.symm)
    (zero_notin hf) (by intro i hi e he; rw [Store.tab_of_content hv] at he; exact hb i hi e he)
  have := e2.det (hback g e3)
  rw [← this, ← hv]
  exact Removes.of e1

theorem setRel_other {s t : Store} {r : RelField} {o : Nat} {ids : List Nat}
    (h : s.setRel r o ids = some t) {k : EKind} (hk : k ≠ r.left) : t.tab k = s.tab k := by
  have h3 := (setRel_some h).2.2
  split at h3
  · rw [h3, Store.tab_withTab_ne _ _ hk]
  · rw [h3]

/-- The same link in a store that has the counters of before. -/
theorem setRel_counted {t u : Store} {r : RelField} {o : Nat} {l : List Nat}
    (h : t.setRel r o l = some u) (c : String → Option Nat) :
    ∃ v, (t.withCounters c).setRel r o l = some v ∧ v.content = u.content := by
  refine ⟨(t.withCounters c).over u, ?_, rfl⟩
  have := Store.setRel_over (t.withCounters c) t r o l
  rw [h] at this
  exact this

theorem orphan_exec (ht : Tidy s) (ha : Ahead s) {k : EKind} (hk : k ≠ .root) {es : List (Ent k)}
    (hv : ∀ e ∈ es, entId k e = 0 ∧ owns k e = [] ∧ RefsOk s k e) :
    ∃ c t, orphanExec k es s = (some c, t) ∧
      (∃ es', c = ⟨[es'], []⟩ ∧ Removes k (es'.map (entId k)) t.content s.content ∧
        Inserts k es' s.content t.content) ∧
      Tidy t ∧ Ahead t ∧ CountersLe s.counters t.counters := by
  refine exec_step (Q := fun c y => ∃ es', c = (⟨[es'], []⟩ : EntStacks k) ∧ Removes k (es'.map (entId k)) y s.content ∧
    Inserts k es' s.content y) ht ha ?_
  intro s1 hc hn ht1 ha1
  have htab := Store.tab_of_content hc
  obtain ⟨es', t, e1, e2, e3, e4, e5, e6, e7, _⟩ := insertNews_facts ht1 ha1 hk (es := es) (by
    intro e he
    obtain ⟨a, b, c⟩ := hv e he
    exact ⟨a, b, c.congr fun k => (htab k).symm⟩)
  refine ⟨_, t, by rw [e1]; rfl, ⟨es', rfl, ?_, hc ▸ e4⟩, e5, e6, e7⟩
  rw [← hc]
  refine removes_created (s := s1) e5 e2 ?_ ?_
  · intro i hi e he
    obtain ⟨v, hv, rfl⟩ := List.mem_map.mp hi
    rw [e3.new v hv] at he
    cases he
    exact e2.bare _ hv
  · exact ⟨t.withCounters s1.counters, rfl, fun g hg =>
      Added.back (t := t.withCounters s1.counters) ht1 e2 (Added.congr (s := s1) (t := t) rfl rfl e3) rfl hg⟩

theorem setInOwner_eq {k : EKind} {r : RelField} (hr : k.owner = some r) (u : Store) (o : Nat)
    (l : List Nat) : u.setInOwner k o l = u.setRel r o l := by
  unfold Store.setInOwner; rw [hr]

theorem create_exec (ht : Tidy s) (ha : Ahead s) {k : EKind} (hk : k ≠ .root) {es : List (Ent k)}
    (hd : k = .document → es ≠ []) {owner : Nat} {index : Int}
    (hv : ∀ e ∈ es, entId k e = 0 ∧ owns k e = [] ∧ RefsOk s k e) :
    ∃ c t, CreateCmd.exec k es owner index s = (some c, t) ∧
      ((c.created = [] ∧ s.content = t.content ∧ c.old = none) ∨ CreateFacts k c s.content t.content) ∧
      Tidy t ∧ Ahead t ∧ CountersLe s.counters t.counters := by
  refine exec_step (Q := fun c y => (c.created = [] ∧ s.content = y ∧ c.old = none) ∨
    CreateFacts k c s.content y) ht ha ?_
  intro s1 hc hn ht1 ha1
  have htab := Store.tab_of_content hc
  obtain ⟨es', t, e1, e2, e3, e4, e5, e6, e7, e8⟩ := insertNews_facts ht1 ha1 hk (es := es) (by
    intro e he
    obtain ⟨a, b, c⟩ := hv e he
    exact ⟨a, b, c.congr fun k => (htab k).symm⟩)
  obtain ⟨r, hr⟩ : ∃ r, k.owner = some r := by
    cases k <;> first | exact absurd rfl hk | exact ⟨_, rfl⟩
  obtain ⟨hr1, hr2⟩ := owner_right hr
  have hread : t.readRel r owner = s1.readRel r owner := by
    unfold Store.readRel; rw [e3.others r.left hr2]
  have hnewt : ∀ i ∈ es'.map (entId k), (t.tab k i).isSome = true := by
    intro i hi
    obtain ⟨f, hf, rfl⟩ := List.mem_map.mp hi
    rw [e3.new f hf]; rfl
  simp only [hr, Store.createIn, e1, Option.bind_some, hread]
  by_cases hkd : k = .document
  · subst hkd
    cases hr
    have hne : es' ≠ [] := by
      intro h0
      have := hd rfl
      rw [h0] at e8
      exact this (List.length_eq_zero_iff.mp e8.symm)
    have hroots : t.roots = s1.roots := e3.others .root (by decide)
    -- the store the documents are linked in
    have key : ∃ t2 g, (if (s1.readRel .rootDocument owner).isEmpty = true then some t
          else t.removeEnts .document (s1.readRel .rootDocument owner)) = some t2 ∧ Forgot g t t2 ∧
        (∀ i, g .document i = true → i = 0 ∨ i ∈ s1.readRel .rootDocument owner) ∧
        (s1.readRel .rootDocument owner = [] → t2 = t) := by
      by_cases hp : s1.readRel .rootDocument owner = []
      · refine ⟨t, fun _ _ => false, by rw [hp]; rfl, forgot_absent e5 (by simp), by simp, fun _ => rfl⟩
      · obtain ⟨g, t2, q1, q2⟩ := removeEnts_spec e5 .document (s1.readRel .rootDocument owner)
        refine ⟨t2, g, ?_, q2.forgot, ?_, fun h => absurd h hp⟩
        · rw [if_neg (by simp [hp]), q1]
        · intro i hi
          rcases q2.only _ _ hi with h | h
          · exact .inl h
          · exact .inr (h.document.2 rfl)
    obtain ⟨t2, g, k1, k2, k3, k4⟩ := key
    have hin : ∀ i ∈ es'.map (entId .document), (t2.tab .document i).isSome = true := by
      intro i hi
      rw [k2.isSome]
      · exact hnewt i hi
      · cases hb : g .document i with
        | false => rfl
        | true =>
          obtain ⟨f, hf, rfl⟩ := List.mem_map.mp hi
          rcases k3 _ hb with h | h
          · exact absurd h (e2.pos f hf)
          · have := ht1.linked h
            rw [show s1.tab RelField.rootDocument.right = s1.tab .document from rfl, e2.absent f hf] at this
            cases this
    obtain ⟨u, hset⟩ : ∃ u, t2.setRel .rootDocument owner (es'.map (entId .document)) = some u := by
      refine ⟨_, setRel_ok hin ?_⟩
      intro _
      cases hes : es' with
      | nil => exact absurd hes hne
      | cons d ds =>
        simp only [List.map_cons, List.head?_cons, Option.all_some]
        exact document_sole ht1 (e2.absent d (hes ▸ .head _)) hroots k2 owner
    have htid : Tidy u := setRel_tidy (e5.forgot k2) (by intro h; exact absurd h (by decide)) hset
    have hcnt : u.counters = t.counters := by rw [setRel_counters hset, k2.counters]
    have hsetu : SetsIn .document owner (es'.map (entId .document)) u.content u.content :=
      SetsIn.of ((setInOwner_eq rfl u owner _).trans (setRel_again hset))
    have hsame : SetsIn .document owner (s1.readRel .rootDocument owner) s.content s.content := by
      rw [← hc]
      exact SetsIn.of ((setInOwner_eq rfl s1 owner _).trans (setRel_same ht1 .rootDocument owner))
    let c : CreateCmd .document :=
      { created := es'
        owner := some owner
        index := index
        existing := s1.readRel .rootDocument owner
        displaced := if (s1.readRel .rootDocument owner).isEmpty then none else some s1.snapshot }
    refine ⟨c, u, ?_, Or.inr ⟨hne, owner, rfl, Or.inr ⟨rfl, hsetu, hsame, ?_⟩⟩, htid,
      setRel_ahead (k2.ahead e6) hset, ?_⟩
    · simp only [if_true]
      rw [k1]
      simp only [Option.bind_some, hset, Option.map_some]
      rfl
    · by_cases hp : s1.readRel .rootDocument owner = []
      · left
        refine ⟨by simp [c, hp], hp, ?_⟩
        rw [← hc]
        have htt : t2 = t := k4 hp
        subst htt
        refine removes_created (s := s1) htid e2 ?_ ?_
        · intro i hi e he
          obtain ⟨f, hf, rfl⟩ := List.mem_map.mp hi
          rw [setRel_other hset (by decide), e3.new f hf] at he
          cases he
          exact e2.bare _ hf
        · obtain ⟨v, v1, v2⟩ := setRel_counted hset s1.counters
          refine ⟨v, v2, fun g' hg' => ?_⟩
          refine Added.link_back_document (t := t2.withCounters s1.counters) (o := owner) hne ht1 e2
            (Added.congr (s := s1) (t := t2) rfl rfl e3) rfl hg' ?_ v1
          rw [← hp, ← hread]
          unfold Store.readRel
          rw [withCounters_tab]
      · right
        obtain ⟨g2, v, q1, _⟩ := removeEnts_spec htid .document (es'.map (entId .document))
        obtain ⟨g3, w, q2, _⟩ := removeEnts_spec ht1 .document (s1.readRel .rootDocument owner)
        refine ⟨_, _, _, if_neg (by simp [hp]), hc, hp, Removes.of q1, hc ▸ Removes.of q2⟩
    · rw [hcnt]; exact e7
  · have hall : ∀ i ∈ insertIdsAt (s1.readRel r owner) index (es'.map (entId k)),
        (t.tab r.right i).isSome = true := by
      intro i hi
      rw [hr1]
      rcases insertIdsAt_mem.mp hi with h | h
      · exact e3.isSome (hr1 ▸ ht1.linked h)
      · exact hnewt i h
    have hrd : r ≠ .rootDocument := by
      rintro rfl
      exact hkd hr1.symm
    obtain ⟨u, hset⟩ : ∃ u, t.setRel r owner
        (insertIdsAt (s1.readRel r owner) index (es'.map (entId k))) = some u :=
      ⟨_, setRel_ok hall (fun h => absurd h hrd)⟩
    have htid : Tidy u := setRel_tidy e5 (by
      intro hrb
      refine ⟨insertIdsAt_nodup (ht1.blocksOnce hrb owner) e2.nodup fun i hi hm => ?_, fun i hi => ?_⟩
      · obtain ⟨f, hf, rfl⟩ := List.mem_map.mp hi
        have := ht1.linked hm
        rw [hr1, e2.absent f hf] at this
        cases this
      · rw [hread] at hi
        exact insertIdsAt_mem.mpr (.inl hi)) hset
    have hsame : SetsIn k owner (s1.readRel r owner) s.content s.content := by
      rw [← hc]
      exact SetsIn.of ((setInOwner_eq hr s1 owner _).trans (setRel_same ht1 r owner))
    let c : CreateCmd k :=
      { created := es'
        owner := some owner
        index := index
        previous := some (s1.readRel r owner) }
    refine ⟨c, u, ?_, ?_, htid, setRel_ahead e6 hset, by rw [setRel_counters hset]; exact e7⟩
    · simp only [if_neg hkd]
      rw [hset]
      rfl
    · by_cases hne : es' = []
      · left
        refine ⟨hne, ?_, rfl⟩
        subst hne
        have h1 : t.content = s1.content := by
          refine Store.content_ext e3.rope (fun k' => ?_) e3.runs e3.images e3.offsets
          by_cases hkk : k' = k
          · subst hkk
            exact IdMap.ext' (by simpa using e3.keys) fun i => e3.old i (by simp)
          · exact e3.others k' hkk
        have h2 : insertIdsAt (s1.readRel r owner) index (([] : List (Ent k)).map (entId k)) =
            t.readRel r owner := by
          rw [hread]
          unfold insertIdsAt
          split <;> simp
        rw [h2, setRel_same e5] at hset
        cases hset
        rw [h1, hc]
      · right
        refine ⟨hne, owner, rfl, Or.inl ⟨hkd, _, rfl, ?_, hsame, ?_⟩⟩
        · rw [← hc]
          refine removes_created (s := s1) htid e2 ?_ ?_
          · intro i hi e he
            obtain ⟨f, hf, rfl⟩ := List.mem_map.mp hi
            rw [setRel_other hset hr2.symm, e3.new f hf] at he
            cases he
            exact e2.bare _ hf
          · obtain ⟨v, v1, v2⟩ := setRel_counted hset s1.counters
            refine ⟨v, v2, fun g' hg' => ?_⟩
            refine Added.link_back (t := t.withCounters s1.counters) (o := owner) (index := index) hr hkd ht1 e2
              (Added.congr (s := s1) (t := t) rfl rfl e3) rfl hg' ?_
            rw [← v1, ← hread]
            unfold Store.readRel
            rw [withCounters_tab]
        · exact SetsIn.of ((setInOwner_eq hr u owner _).trans (setRel_again hset))

/-- Every valid call succeeds and keeps the store in good order. -/
theorem ent_exec (ht : Tidy s) (ha : Ahead s) {a : EntCall} (hv : a.Valid s) :
    ∃ c t, a.exec s = (some c, t) ∧ EntDone c s.content t.content ∧ Tidy t ∧ Ahead t ∧
      CountersLe s.counters t.counters := by
  cases a with
  | create k es owner index =>
    obtain ⟨h1, h2, h3⟩ := hv
    obtain ⟨c, t, e1, e2, e3⟩ := create_exec ht ha h1 h2 (owner := owner) (index := index) h3
    exact ⟨.create k c, t, by simp only [EntCall.exec, e1, Option.map_some], e2, e3⟩
  | orphan k es =>
    obtain ⟨h1, h2⟩ := hv
    obtain ⟨c, t, e1, e2, e3⟩ := orphan_exec ht ha h1 h2
    exact ⟨.orphan k c, t, by simp only [EntCall.exec, e1, Option.map_some], e2, e3⟩
  | update rels k es =>
    have : k ≠ .root ∧ ∀ e ∈ es, ∃ o, s.tab k (entId k e) = some o ∧
        RefsOk s k (if rels then e else keepEnt k e o) := by
      cases rels with
      | false => exact hv
      | true =>
        refine ⟨hv.1, fun e he => ?_⟩
        obtain ⟨h1, h2⟩ := hv.2 e he
        obtain ⟨o, ho⟩ := Option.isSome_iff_exists.mp h1
        exact ⟨o, ho, h2⟩
    obtain ⟨c, t, e1, e2, e3⟩ := update_exec ht ha this.1 this.2
    exact ⟨.update rels k c, t, by simp only [EntCall.exec, e1, Option.map_some], e2, e3⟩
  | remove k ids =>
    obtain ⟨c, t, e1, e2, e3⟩ := remove_exec ht ha hv.2
    exact ⟨.remove k c, t, by simp only [EntCall.exec, e1, Option.map_some], e2, e3⟩
  | setRel => exact hv.elim
  | moveRel => exact hv.elim

end Verif
