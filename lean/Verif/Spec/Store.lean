import Verif.Model.Store
/- What it means that two stores hold the same document. -/
namespace Verif

/-- Same text, same entities, same formats. -/
structure SameContent (a b : Store) : Prop where
  rope : a.rope = b.rope
  roots : a.roots = b.roots
  documents : a.documents = b.documents
  frames : a.frames = b.frames
  blocks : a.blocks = b.blocks
  lists : a.lists = b.lists
  resources : a.resources = b.resources
  tables : a.tables = b.tables
  tableCells : a.tableCells = b.tableCells
  formatRuns : a.formatRuns = b.formatRuns
  blockImages : a.blockImages = b.blockImages
  blockOffsets : a.blockOffsets = b.blockOffsets

/-- Same document and same id counters. -/
structure SameDocument (a b : Store) : Prop extends SameContent a b where
  counters : a.counters = b.counters

/-- `b` is `a` after some writes to the document, whatever they are; only the save points, which no
repository touches, are the same. -/
structure Written (a b : Store) : Prop where
  savepoints : b.savepoints = a.savepoints
  next : b.nextSavepoint = a.nextSavepoint

end Verif
