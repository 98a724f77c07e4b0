import Verif.Model.Text
/-
Search: document_search/src/use_cases/search_helpers.rs, find_all_uc.rs, find_text_uc.rs.

The external crates are parameters: `lower` is `str::to_lowercase`, `words` is
`unicode_word_indices` (byte offset and text of each word), `regex` the regular-expression engine.
-/
namespace Verif

/-- What search takes from the standard library and from other crates. -/
structure SearchEnv where
  /-- `str::to_lowercase`. -/
  lower : List Char → List Char
  /-- `UnicodeSegmentation::unicode_word_indices`. -/
  words : List Char → List (Nat × List Char)
  /-- `RegexBuilder::new(query).case_insensitive(ci).build()`, then `find_iter`: byte ranges;
  `none` is an invalid pattern. -/
  regex : List Char → Bool → Option (List Char → List (Nat × Nat))

/-- The loop of `build_byte_to_char_map`, search_helpers.rs L36-L45: the entry of a byte inside a
character stays 0. -/
def byteCharMapFrom : Nat → List Char → List Nat
  | k, [] => [k]
  | k, c :: cs => k :: (List.replicate (c.utf8Size - 1) 0 ++ byteCharMapFrom (k + 1) cs)

/-- `build_byte_to_char_map`, search_helpers.rs L36-L45. -/
def byteCharMap (text : List Char) : List Nat := byteCharMapFrom 0 text

/-- One round of the loop of `build_word_boundary_set`, L57-L62; `none` is the panic of the slice. -/
def wordEnds (text : List Char) (w : Nat × List Char) : Option (List Nat) :=
  (splitAtByte text w.1).map fun p => [p.1.length, p.1.length + w.2.length]

/-- `mapM` over the words, kept as a plain recursion. -/
def allWordEnds (text : List Char) : List (Nat × List Char) → Option (List Nat)
  | [] => some []
  | w :: ws => (wordEnds text w).bind fun e => (allWordEnds text ws).map fun r => e ++ r

/-- `build_word_boundary_set`, L52-L64 (the set as a list). -/
def wordBoundaries (env : SearchEnv) (text : List Char) : Option (List Nat) :=
  (allWordEnds text (env.words text)).map fun e => 0 :: text.length :: e

/-- The test `wb.contains(start) && wb.contains(end)`, L101-L107 and L138-L144. -/
def boundariesOk (wb : Option (List Nat)) (a b : Nat) : Bool :=
  match wb with
  | none => true
  | some l => l.contains a && l.contains b

/-- The literal loop, L113-L147. -/
def literalMatches (text query : List Char) (wb : Option (List Nat)) : List (Nat × Nat) :=
  if query.length = 0 ∨ text.length < query.length then []
  else
    ((List.range (text.length + 1 - query.length)).filter fun p =>
      decide ((text.drop p).take query.length = query) && boundariesOk wb p (p + query.length)).map
      fun p => (p, query.length)

/-- The regular-expression loop, L96-L109; `none` is an index out of range or an underflow. -/
def regexMatches (map : List Nat) (wb : Option (List Nat)) : List (Nat × Nat) →
    Option (List (Nat × Nat))
  | [] => some []
  | (s, e) :: ms =>
    map[s]?.bind fun cs => map[e]?.bind fun ce =>
    if ce < cs then none
    else (regexMatches map wb ms).map fun r =>
      if boundariesOk wb cs ce then (cs, ce - cs) :: r else r

/-- `find_all_matches`, L69-L151; `none` is an error (bad pattern) or a panic. -/
def findAllMatches (env : SearchEnv) (text query : List Char) (caseSensitive wholeWord useRegex : Bool) :
    Option (List (Nat × Nat)) :=
  if query.isEmpty then some []
  else
    (if wholeWord then (wordBoundaries env text).map some else some none).bind fun wb =>
    if useRegex then
      (env.regex query (!caseSensitive)).bind fun find =>
      regexMatches (byteCharMap text) wb (find text)
    else
      let st := if caseSensitive then text else env.lower text
      let sq := if caseSensitive then query else env.lower query
      some (literalMatches st sq wb)

/-- `FindResultDto`. -/
structure FindResult where
  found : Bool
  position : Int
  length : Int
deriving DecidableEq, Repr

/-- The choice of one match, find_text_uc.rs L76-L91. -/
def pickMatch (ms : List (Nat × Nat)) (startPosition : Int) (backward : Bool) : Option (Nat × Nat) :=
  let start := (max startPosition 0).toNat
  if backward then ms.reverse.find? fun m => decide (m.1 < start)
  else ms.find? fun m => decide (m.1 ≥ start)

/-- `FindTextUseCase::execute` after the text is built, find_text_uc.rs L66-L106. -/
def findText (env : SearchEnv) (text query : List Char) (caseSensitive wholeWord useRegex : Bool)
    (startPosition : Int) (backward : Bool) : Option FindResult :=
  (findAllMatches env text query caseSensitive wholeWord useRegex).map fun ms =>
  match pickMatch ms startPosition backward with
  | some (p, l) => ⟨true, p, l⟩
  | none => ⟨false, 0, 0⟩

/-- `FindAllResultDto` and `FindAllUseCase::execute` after the text is built, find_all_uc.rs
L63-L92: positions, lengths, count. -/
def findAll (env : SearchEnv) (text query : List Char) (caseSensitive wholeWord useRegex : Bool) :
    Option (List Int × List Int × Int) :=
  (findAllMatches env text query caseSensitive wholeWord useRegex).map fun ms =>
  (ms.map fun m => (m.1 : Int), ms.map fun m => (m.2 : Int), (ms.length : Int))

end Verif
