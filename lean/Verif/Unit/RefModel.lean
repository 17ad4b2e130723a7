import Verif.Bundle.PoolModel

/-!
# References to declarations (model)
-/

namespace Redscript

/-- `SourceRef` (compiler/src/unit.rs:1356-1360). Instead of the position there is what the source map finds for it
(compiler/src/source_map.rs:58-72, 140-154): the path of the file and the line. The position is the beginning of the
declaration (compiler/src/unit.rs:538, 628, 701, 722), that of the span of the whole class, function or enum being the
same as that of its `Declaration` (compiler/src/parser.rs:279-315). -/
structure SourceRef where
  index : Idx
  loc : Option (String × BitVec 32)

/-- The change of the index made by `cleanup_pool` (compiler/src/unit.rs:1203-1205). -/
def SourceRef.move (σ : Idx → Idx) (r : SourceRef) : SourceRef := { r with index := σ r.index }

end Redscript
