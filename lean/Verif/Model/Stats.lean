import Verif.Model.Inspect
import Verif.Model.ListCommands
import Verif.Model.Session
/-
Document statistics: document_inspection/src/use_cases/get_document_stats_uc.rs.
-/
namespace Verif

/-- `str::split` on whitespace: the pieces between whitespace characters, possibly empty. -/
def splitWhite : List Char → List (List Char)
  | [] => [[]]
  | c :: cs =>
    if isWhite c then [] :: splitWhite cs
    else
      match splitWhite cs with
      | [] => [[c]]
      | w :: ws => (c :: w) :: ws

/-- `str::split_whitespace().count()`: the pieces that are not empty. -/
def wordCount (cs : List Char) : Nat := ((splitWhite cs).filter fun w => !w.isEmpty).length

/-- `DocumentStatsDto`. -/
structure DocStats where
  characters : Int
  words : Nat
  blocks : Int
  frames : Nat
  images : Nat
  lists : Nat
  tables : Nat
deriving DecidableEq, Repr

namespace Store

/-- The loop over the blocks, get_document_stats_uc.rs L84-L97: words and images. -/
def countWords (s : Store) : List Block → Option (Nat × Nat)
  | [] => some (0, 0)
  | b :: bs =>
    (blockContent s.text b.id).bind fun cs =>
    (s.countWords bs).map fun r => (wordCount cs + r.1, (s.imagesOf b.id).length + r.2)

/-- `GetDocumentStatsUseCase::execute`, get_document_stats_uc.rs L36-L114. -/
def documentStats (s : Store) : Option DocStats :=
  s.docId.bind fun did =>
  (s.documents did).bind fun d =>
  let frames := (s.docFrames did).filterMap fun i => s.frames i
  let ids := frames.flatMap fun fr => s.frameBlocks fr.id
  (s.countWords (s.getBlocks ids)).map fun r =>
    ⟨d.characterCount, r.1, d.blockCount, (s.docFrames did).length, r.2, (s.docLists did).length,
      (s.docTables did).length⟩

end Store
end Verif
