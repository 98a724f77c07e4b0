import Verif.Model.Replace
/-
Searching a document: document_search/src/use_cases/find_all_uc.rs and find_text_uc.rs, from the store to the result.
-/
namespace Verif
namespace Store

/-- `FindAllUseCase::execute`, find_all_uc.rs L26-L92.  `build_full_text`, L27-L56, is the text `replace_text` searches. -/
def findAllIn (s : Store) (env : SearchEnv) (query : List Char) (caseSensitive wholeWord useRegex : Bool) :
    Option (List Int × List Int × Int) :=
  s.docId.bind fun did =>
  (s.searchText did).bind fun text => findAll env text query caseSensitive wholeWord useRegex

/-- `FindTextUseCase::execute`, find_text_uc.rs L25-L108. -/
def findTextIn (s : Store) (env : SearchEnv) (query : List Char) (caseSensitive wholeWord useRegex : Bool)
    (startPosition : Int) (backward : Bool) : Option FindResult :=
  s.docId.bind fun did =>
  (s.searchText did).bind fun text => findText env text query caseSensitive wholeWord useRegex startPosition backward

end Store
end Verif
