import Verif.Model.ExportMarkdown
import Verif.Spec.MarkdownText
/- The Markdown reader on the pieces the exporter writes. -/
namespace Verif

theorem mdScan_length {d : List Char} : ∀ {k : Bool} {s : List Char} {a b : List Char}, mdScan d k s = some (a, b) →
    a.length + b.length ≤ s.length
  | _, [], _, _, h => by simp [mdScan] at h
  | true, c :: cs, a, b, h => by
    simp only [mdScan] at h
    cases h1 : mdScan d (c ≠ '`') cs with
    | none => rw [h1] at h; cases h
    | some r =>
      have := mdScan_length (d := d) (a := r.1) (b := r.2) h1
      rw [h1] at h
      simp at h
      obtain ⟨rfl, rfl⟩ := h
      simp; omega
  | false, c :: cs, a, b, h => by
    unfold mdScan at h
    split at h
    · simp at h
      obtain ⟨rfl, rfl⟩ := h
      simp
    · split at h
      · cases cs with
        | nil => cases h
        | cons e es =>
          simp only at h
          cases h1 : mdScan d false es with
          | none => simp [h1] at h
          | some r =>
            have := mdScan_length (d := d) (a := r.1) (b := r.2) h1
            simp [h1] at h
            obtain ⟨rfl, rfl⟩ := h
            simp; omega
      · cases h1 : mdScan d (c = '`') cs with
        | none => simp [h1] at h
        | some r =>
          have := mdScan_length (d := d) (a := r.1) (b := r.2) h1
          simp [h1] at h
          obtain ⟨rfl, rfl⟩ := h
          simp; omega

theorem dropWhile_length {α : Type} (P : α → Bool) (s : List α) : (s.dropWhile P).length ≤ s.length := by
  exact (List.dropWhile_suffix P).length_le

/-- More steps do not change the result. -/
theorem mdInline_enough : ∀ (n : Nat) {before : Option Char} {s : List Char} {r : List MdInline}, mdInline n before s = some r →
    ∀ m, s.length < m → mdInline m before s = some r
  | 0, _, _, _, h, _, _ => by simp [mdInline] at h
  | n + 1, before, [], r, h, m, hm => by
    cases m with
    | zero => omega
    | succ m => simpa [mdInline] using h
  | n + 1, before, c :: cs, r, h, m, hm => by
    cases m with
    | zero => omega
    | succ m =>
      have ih := fun b s r h => mdInline_enough n (before := b) (s := s) (r := r) h m
      simp only [List.length_cons] at hm
      unfold mdInline at h ⊢
      split at h
      · rename_i hc
        rw [if_pos hc]
        cases cs with
        | nil => cases h
        | cons e es =>
          simp only at h ⊢
          split at h
          · rename_i he
            rw [if_pos he]
            cases h1 : mdInline n (some e) es with
            | none => simp [h1] at h
            | some r' => rw [ih _ _ _ h1 (by simp at hm; omega)]; rw [h1] at h; exact h
          · cases h
      · rename_i hc
        rw [if_neg hc]
        split at h
        · rename_i hc
          rw [if_pos hc]
          simp only at h ⊢
          have hl := dropWhile_length (fun x => decide (x ≠ '`')) cs
          cases hd : cs.dropWhile (fun x => decide (x ≠ '`')) with
          | nil => rw [hd] at h; cases h
          | cons q rest =>
            rw [hd] at h hl
            simp only at h ⊢
            split at h
            · cases h
            · rename_i hcond
              rw [if_neg hcond]
              cases h1 : mdInline n (some '`') rest with
              | none => simp [h1] at h
              | some r' => rw [ih _ _ _ h1 (by simp at hl; omega)]; rw [h1] at h; exact h
        · rename_i hc
          rw [if_neg hc]
          split at h
          · rename_i hc
            rw [if_pos hc]
            cases hs : mdScan "](".toList false cs with
            | none => rw [hs] at h; cases h
            | some x =>
              have hl := mdScan_length (a := x.1) (b := x.2) hs
              rw [hs] at h
              simp only [Option.bind_some] at h ⊢
              have hl2 := dropWhile_length (fun y => decide (y ≠ ')')) x.2
              cases hd : x.2.dropWhile (fun y => decide (y ≠ ')')) with
              | nil => rw [hd] at h; cases h
              | cons q rest =>
                rw [hd] at h hl2
                simp only at h ⊢
                simp only [List.length_cons] at hl2
                split at h
                · rename_i hu
                  rw [if_pos hu]
                  cases h1 : mdInline n (some '[') x.1 with
                  | none => simp [h1] at h
                  | some r1 =>
                    cases h2 : mdInline n (some ')') rest with
                    | none => simp [h1, h2] at h
                    | some r2 =>
                      rw [ih _ _ _ h1 (by omega), ih _ _ _ h2 (by omega)]
                      rw [h1, h2] at h; exact h
                · cases h
          · rename_i hc
            rw [if_neg hc]
            split at h
            · rename_i hc
              rw [if_pos hc]
              simp only at h ⊢
              split at h
              · cases h
              · rename_i hk
                rw [if_neg hk]
                have hb : ((c :: cs).dropWhile (fun x => decide (x = '*'))).length ≤ cs.length := by
                  rw [List.dropWhile_cons_of_pos (by simpa using hc)]; exact dropWhile_length _ _
                generalize hbody : (c :: cs).dropWhile (fun x => decide (x = '*')) = body at h hb ⊢
                generalize hkk : ((c :: cs).takeWhile (fun x => decide (x = '*'))).length = k at h ⊢
                cases hs : mdScan (List.replicate k '*') false body with
                | none => rw [hs] at h; cases h
                | some x =>
                  have hl := mdScan_length (a := x.1) (b := x.2) hs
                  rw [hs] at h
                  simp only [Option.bind_some] at h ⊢
                  split at h
                  · cases h
                  · rename_i hcond
                    rw [if_neg hcond]
                    cases h1 : mdInline n (some '*') x.1 with
                    | none => simp [h1] at h
                    | some r1 =>
                      cases h2 : mdInline n (some '*') x.2 with
                      | none => simp [h1, h2] at h
                      | some r2 =>
                        rw [ih _ _ _ h1 (by omega), ih _ _ _ h2 (by omega)]
                        rw [h1, h2] at h; exact h
            · rename_i hc
              rw [if_neg hc]
              split at h
              · rename_i hc
                rw [if_pos hc]
                simp only at h ⊢
                split at h
                · cases h
                · rename_i hk
                  rw [if_neg hk]
                  have hb : ((c :: cs).dropWhile (fun x => decide (x = '~'))).length ≤ cs.length := by
                    rw [List.dropWhile_cons_of_pos (by simpa using hc)]; exact dropWhile_length _ _
                  generalize hbody : (c :: cs).dropWhile (fun x => decide (x = '~')) = body at h hb ⊢
                  generalize hkk : ((c :: cs).takeWhile (fun x => decide (x = '~'))).length = k at h ⊢
                  cases hs : mdScan (List.replicate k '~') false body with
                  | none => rw [hs] at h; cases h
                  | some x =>
                    have hl := mdScan_length (a := x.1) (b := x.2) hs
                    rw [hs] at h
                    simp only [Option.bind_some] at h ⊢
                    split at h
                    · cases h
                    · rename_i hcond
                      rw [if_neg hcond]
                      cases h1 : mdInline n (some '~') x.1 with
                      | none => simp [h1] at h
                      | some r1 =>
                        cases h2 : mdInline n (some '~') x.2 with
                        | none => simp [h1, h2] at h
                        | some r2 =>
                          rw [ih _ _ _ h1 (by omega), ih _ _ _ h2 (by omega)]
                          rw [h1, h2] at h; exact h
              · rename_i hc
                rw [if_neg hc]
                split at h
                · cases h
                · rename_i hc
                  rw [if_neg hc]
                  split at h
                  · cases h
                  · rename_i hc
                    rw [if_neg hc]
                    cases h1 : mdInline n (some c) cs with
                    | none => simp [h1] at h
                    | some r' => rw [ih _ _ _ h1 (by omega)]; rw [h1] at h; exact h

/-- `x`, after the character `before`, is read as `r`. -/
def MdReads (before : Option Char) (x : List Char) (r : List MdInline) : Prop := mdInline (x.length + 1) before x = some r

theorem MdReads.fuel {b : Option Char} {x : List Char} {r : List MdInline} (h : MdReads b x r) (n : Nat) (hn : x.length < n) :
    mdInline n b x = some r := mdInline_enough _ h n hn

theorem MdReads.of {b : Option Char} {x : List Char} {r : List MdInline} {n : Nat} (h : mdInline n b x = some r) : MdReads b x r :=
  mdInline_enough _ h _ (Nat.lt_succ_self _)

theorem MdReads.nil (b : Option Char) : MdReads b [] [] := rfl

/-- An escaped character. -/
theorem MdReads.escaped {b : Option Char} {c : Char} {x : List Char} {r : List MdInline} (hc : c ∈ mdPunct) (h : MdReads (some c) x r) :
    MdReads b ('\\' :: c :: x) (.text [c] :: r) := by
  apply MdReads.of (n := x.length + 2)
  unfold mdInline
  rw [if_pos rfl]
  simp only [if_pos hc]
  rw [h.fuel _ (by omega)]
  rfl

/-- A character that stands for itself. -/
theorem MdReads.char {b : Option Char} {c : Char} {x : List Char} {r : List MdInline} (hc : c ∉ mdSpecial) (hc2 : c ∉ mdControl)
    (ht : (c = '<' ∨ c = '&') → x.head?.any mdTagStart = false) (h : MdReads (some c) x r) :
    MdReads b (c :: x) (.text [c] :: r) := by
  apply MdReads.of (n := x.length + 2)
  unfold mdInline
  have hne : ∀ d, d ∈ mdSpecial → c ≠ d := fun d hd e => hc (e ▸ hd)
  rw [if_neg (hne _ (by decide)), if_neg (hne _ (by decide)), if_neg (hne _ (by decide)), if_neg (hne _ (by decide)),
    if_neg (hne _ (by decide)), if_neg (by simp [hc, hc2]), if_neg (by rintro ⟨h1, h2⟩; rw [ht h1] at h2; cases h2)]
  rw [h.fuel _ (by omega)]
  rfl

theorem takeWhile_stop' {P : Char → Bool} {t : List Char} {c : Char} {x : List Char} (h : ∀ a ∈ t, P a = true) (hc : P c = false) :
    (t ++ c :: x).takeWhile P = t ∧ (t ++ c :: x).dropWhile P = c :: x := by
  induction t with
  | nil => simp [hc]
  | cons a t ih =>
    have := ih fun b hb => h b (by simp [hb])
    simp [h a (by simp), this]

/-- Code. -/
theorem MdReads.code {b : Option Char} {t x : List Char} {r : List MdInline} (h0 : t ≠ []) (h1 : t.head? ≠ some ' ')
    (h2 : t.getLast? ≠ some ' ') (h3 : ∀ c ∈ t, c ≠ '`' ∧ c ∉ mdControl) (hx : x.head? ≠ some '`') (h : MdReads (some '`') x r) :
    MdReads b ('`' :: t ++ '`' :: x) (.code t :: r) := by
  apply MdReads.of (n := t.length + x.length + 3)
  obtain ⟨e1, e2⟩ := takeWhile_stop' (P := fun a => decide (a ≠ '`')) (c := '`') (x := x) (fun a ha => by simpa using (h3 a ha).1) (by decide)
  rw [List.cons_append]
  unfold mdInline
  simp only
  rw [if_neg (by decide), if_pos trivial]
  simp only [e1, e2]
  rw [if_neg, h.fuel _ (by omega)]
  · rfl
  · rintro (h | h | h | ⟨c, h, h'⟩ | h)
    · exact h0 h
    · exact h1 h
    · exact h2 h
    · exact (h3 c h).2 h'
    · exact hx h

/-- The scan for `d` goes over `x`. -/
def MdSkips (d x : List Char) : Prop :=
  ∀ y a b, mdScan d false y = some (a, b) → mdScan d false (x ++ y) = some (x ++ a, b)

theorem MdSkips.nil (d : List Char) : MdSkips d [] := fun _ _ _ h => h

theorem MdSkips.append {d x y : List Char} (h : MdSkips d x) (k : MdSkips d y) : MdSkips d (x ++ y) := by
  intro z a b hz
  have := h _ _ _ (k _ _ _ hz)
  simpa using this

theorem mdScan_found {d : List Char} (h : d ≠ []) (y : List Char) : mdScan d false (d ++ y) = some ([], y) := by
  cases d with
  | nil => exact absurd rfl h
  | cons a d =>
    rw [List.cons_append]
    unfold mdScan
    have : (a :: d).isPrefixOf (a :: (d ++ y)) = true := by
      rw [List.isPrefixOf_iff_prefix]; exact ⟨y, rfl⟩
    rw [if_pos this]
    simp

theorem MdSkips.found {d x : List Char} (h0 : d ≠ []) (h : MdSkips d x) (y : List Char) : mdScan d false (x ++ (d ++ y)) = some (x, y) := by
  have := h _ _ _ (mdScan_found h0 y)
  simpa using this

theorem MdSkips.char {d : List Char} {c : Char} (h0 : d ≠ []) (hd : d.head? ≠ some c) (h1 : c ≠ '\\') (h2 : c ≠ '`') : MdSkips d [c] := by
  intro y a b hy
  show mdScan d false (c :: y) = _
  unfold mdScan
  rw [if_neg, if_neg h1]
  · rw [show decide (c = '`') = false by simpa using h2, hy]; rfl
  · cases d with
    | nil => exact absurd rfl h0
    | cons e d =>
      intro h
      rw [List.isPrefixOf_cons_cons] at h
      simp at h hd
      exact hd h.1

theorem MdSkips.escaped {d : List Char} (c : Char) (h0 : d ≠ []) (hd : d.head? ≠ some '\\') : MdSkips d ['\\', c] := by
  intro y a b hy
  show mdScan d false ('\\' :: c :: y) = _
  unfold mdScan
  rw [if_neg, if_pos rfl]
  · simp only [hy]; rfl
  · cases d with
    | nil => exact absurd rfl h0
    | cons e d =>
      intro h
      rw [List.isPrefixOf_cons_cons] at h
      simp at h hd
      exact hd h.1

theorem mdScan_code {d t : List Char} (ht : ∀ c ∈ t, c ≠ '`') {y a b : List Char} (h : mdScan d false y = some (a, b)) :
    mdScan d true (t ++ '`' :: y) = some (t ++ '`' :: a, b) := by
  induction t with
  | nil =>
    rw [List.nil_append]
    unfold mdScan
    rw [show decide ('`' ≠ '`') = false from rfl, h]; rfl
  | cons c t ih =>
    rw [List.cons_append]
    unfold mdScan
    rw [show decide (c ≠ '`') = true by simpa using ht c (by simp), ih fun c' hc' => ht c' (by simp [hc'])]; rfl

theorem MdSkips.code {d t : List Char} (h0 : d ≠ []) (hd : d.head? ≠ some '`') (ht : ∀ c ∈ t, c ≠ '`') : MdSkips d ('`' :: t ++ ['`']) := by
  intro y a b hy
  have := mdScan_code ht hy
  rw [show '`' :: t ++ ['`'] ++ y = '`' :: (t ++ '`' :: y) by simp]
  unfold mdScan
  rw [if_neg, if_neg (by decide), show decide ('`' = '`') = true from rfl, this]
  · simp
  · cases d with
    | nil => exact absurd rfl h0
    | cons e d =>
      intro h
      rw [List.isPrefixOf_cons_cons] at h
      simp at h hd
      exact hd h.1

theorem mem_mdExport_punct {c : Char} (h : c ∈ mdExportSet) : c ∈ mdPunct := by
  revert h; unfold mdExportSet; 
  intro h
  simp only [List.mem_cons, List.not_mem_nil, or_false] at h
  rcases h with rfl | rfl | rfl | rfl | rfl | rfl | rfl | rfl | rfl | rfl | rfl | rfl | rfl | rfl | rfl | rfl | rfl <;> decide

theorem MdSkips.escape {d t : List Char} (h0 : d ≠ []) (hd : ∀ c, d.head? = some c → c ∈ mdExportSet ∧ c ≠ '\\') (ht : ∀ c ∈ t, c ≠ '`') :
    MdSkips d (escapeMarkdownExport t) := by
  induction t with
  | nil => exact MdSkips.nil d
  | cons c t ih =>
    have : escapeMarkdownExport (c :: t) = mdCode mdExportSet c ++ escapeMarkdownExport t := by simp [escapeMarkdownExport]
    rw [this]
    refine MdSkips.append ?_ (ih fun c' hc' => ht c' (by simp [hc']))
    unfold mdCode
    split
    · exact MdSkips.escaped c h0 (fun h => (hd _ h).2 rfl)
    · rename_i hc
      exact MdSkips.char h0 (fun h => hc (hd _ h).1) (fun e => hc (by rw [e]; decide)) (ht c (by simp))

theorem MdSkips.chars {d t : List Char} (h0 : d ≠ []) (h : ∀ c ∈ t, d.head? ≠ some c ∧ c ≠ '\\' ∧ c ≠ '`') : MdSkips d t := by
  induction t with
  | nil => exact MdSkips.nil d
  | cons c t ih =>
    obtain ⟨a, b, e⟩ := h c (by simp)
    exact MdSkips.append (x := [c]) (MdSkips.char h0 a b e) (ih fun c' hc' => h c' (by simp [hc']))

/-- A link. -/
theorem MdReads.link {b : Option Char} {t u x : List Char} {q r : List MdInline} (hs : MdSkips "](".toList t) (hq : MdReads (some '[') t q)
    (hu : u.all mdUrlChar = true) (h : MdReads (some ')') x r) :
    MdReads b ('[' :: t ++ "](".toList ++ u ++ ')' :: x) (.mark (.link (String.ofList u)) q :: r) := by
  apply MdReads.of (n := t.length + u.length + x.length + 5)
  have hu' : ∀ a ∈ u, decide (a ≠ ')') = true := by
    intro a ha
    have := List.all_eq_true.mp hu a ha
    unfold mdUrlChar at this
    simp at this ⊢
    rintro rfl
    simp at this
  obtain ⟨e1, e2⟩ := takeWhile_stop' (P := fun a => decide (a ≠ ')')) (c := ')') (x := x) hu' (by decide)
  rw [show '[' :: t ++ "](".toList ++ u ++ ')' :: x = '[' :: (t ++ ("](".toList ++ (u ++ ')' :: x))) by simp]
  unfold mdInline
  rw [if_neg (by decide), if_neg (by decide), if_pos rfl, hs.found (by decide)]
  simp only [Option.bind_some, e1, e2]
  rw [if_pos hu, hq.fuel _ (by omega), h.fuel _ (by omega)]
  rfl

theorem stars_run {c : Char} {t : List Char} (k : Nat) (h : t.head? ≠ some c) :
    (List.replicate k c ++ t).takeWhile (fun a => decide (a = c)) = List.replicate k c ∧
    (List.replicate k c ++ t).dropWhile (fun a => decide (a = c)) = t := by
  induction k with
  | zero =>
    cases t with
    | nil => simp
    | cons a t =>
      simp at h
      simp [h]
  | succ k ih =>
    rw [List.replicate_succ, List.cons_append]
    simp [ih.1, ih.2]

/-- Stars. -/
theorem MdReads.stars {b : Option Char} {t x : List Char} {q r : List MdInline} (k : Nat) (hk : 1 ≤ k ∧ k ≤ 3) (h0 : t ≠ [])
    (ht : t.head? ≠ some '*') (hs : MdSkips (List.replicate k '*') t) (hq : MdReads (some '*') t q) (hx : x.head? ≠ some '*')
    (ho : mdOpens b t.head? = true) (hc : mdCloses t.getLast? x.head? = true) (h : MdReads (some '*') x r) :
    MdReads b (List.replicate k '*' ++ t ++ (List.replicate k '*' ++ x)) (mdStarred k q :: r) := by
  have hne : List.replicate k '*' ≠ [] := by
    cases k with
    | zero => omega
    | succ k => simp [List.replicate_succ]
  have hy : (t ++ (List.replicate k '*' ++ x)).head? = t.head? := by
    cases t with
    | nil => exact absurd rfl h0
    | cons a t => rfl
  obtain ⟨e1, e2⟩ := stars_run (c := '*') (t := t ++ (List.replicate k '*' ++ x)) k (by rw [hy]; exact ht)
  have hl : ('*' :: (List.replicate (k - 1) '*' ++ (t ++ (List.replicate k '*' ++ x)))) = List.replicate k '*' ++ t ++ (List.replicate k '*' ++ x) := by
    obtain ⟨j, rfl⟩ : ∃ j, k = j + 1 := ⟨k - 1, by omega⟩
    simp [List.replicate_succ]
  rw [← hl]
  have hl' : ('*' :: (List.replicate (k - 1) '*' ++ (t ++ (List.replicate k '*' ++ x)))) = List.replicate k '*' ++ (t ++ (List.replicate k '*' ++ x)) := by
    rw [hl]; simp
  apply MdReads.of (n := t.length + x.length + 2)
  unfold mdInline
  rw [if_neg (by decide), if_neg (by decide), if_neg (by decide), if_pos rfl]
  simp only [hl', e1, e2, List.length_replicate]
  rw [if_neg (by omega), hs.found hne]
  simp only [Option.bind_some, hy]
  rw [if_neg, hq.fuel _ (by omega), h.fuel _ (by omega)]
  · rfl
  · rintro (h | h | h)
    · exact hx h
    · exact h ho
    · exact h hc

/-- Tildes. -/
theorem MdReads.tildes {b : Option Char} {t x : List Char} {q r : List MdInline} (h0 : t ≠ [])
    (ht : t.head? ≠ some '~') (hs : MdSkips "~~".toList t) (hq : MdReads (some '~') t q) (hx : x.head? ≠ some '~')
    (ho : mdOpens b t.head? = true) (hc : mdCloses t.getLast? x.head? = true) (h : MdReads (some '~') x r) :
    MdReads b ("~~".toList ++ t ++ ("~~".toList ++ x)) (.mark .strike q :: r) := by
  have hy : (t ++ ("~~".toList ++ x)).head? = t.head? := by
    cases t with
    | nil => exact absurd rfl h0
    | cons a t => rfl
  obtain ⟨e1, e2⟩ := stars_run (c := '~') (t := t ++ ("~~".toList ++ x)) 2 (by rw [hy]; exact ht)
  have hl : "~~".toList ++ t ++ ("~~".toList ++ x) = '~' :: '~' :: (t ++ ("~~".toList ++ x)) := by simp
  have hl' : List.replicate 2 '~' ++ (t ++ ("~~".toList ++ x)) = '~' :: '~' :: (t ++ ("~~".toList ++ x)) := by rfl
  rw [hl]
  rw [hl'] at e1 e2
  apply MdReads.of (n := t.length + x.length + 2)
  unfold mdInline
  rw [if_neg (by decide), if_neg (by decide), if_neg (by decide), if_neg (by decide), if_pos rfl]
  simp only [e1, e2, List.length_replicate]
  rw [if_neg (by omega), show List.replicate 2 '~' = "~~".toList from rfl, hs.found (by decide)]
  simp only [Option.bind_some, hy]
  rw [if_neg, hq.fuel _ (by omega), h.fuel _ (by omega)]
  · rfl
  · rintro (h | h | h)
    · exact hx h
    · exact h ho
    · exact h hc

end Verif
