import Verif.RktFile
import Verif.SmtFilesRead
/-
The definitions of `metalift/utils/utils.rkt` are those of `utilsDefs`: reading the text piece by piece.
-/
namespace Metalift
namespace Rkt

deriving instance DecidableEq for RDef

set_option maxRecDepth 100000 in
theorem utils_forms : readModule utilsText = some utilsForms.flatten := by
  have h1 : afterLine utilsText.toList = utilsRkt.flatten := by
    simp only [utilsText, String.toList_ofList]
    simp [afterLine]
  have h2 : readModule utilsText = Smt.readChars (utilsRkt.map (List.map paren)).flatten := by
    simp only [readModule, generateAst, String.toList_ofList, Smt.readChars, h1, List.map_flatten]
  rw [h2]
  refine Smt.readChars_flatten _ _ ?_
  decide +kernel

set_option maxRecDepth 100000 in
/-- **The library consists of the definitions of `utilsDefs`.** -/
theorem utils_read : (readModule utilsText).map (List.filterMap readDef) = some utilsDefs := by
  rw [utils_forms]
  decide +kernel

end Rkt
end Metalift
