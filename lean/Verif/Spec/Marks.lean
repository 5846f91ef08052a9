import Verif.Model.Marks
/-!
# Specification: the Markdown form of marks
-/

namespace Verif.Spec
open Verif

/-- The delimiter of the three symmetric marks. -/
def delimiter : MarkCls → Option Str
  | .strong => some "**".toList
  | .em => some "*".toList
  | .strike => some "~~".toList
  | _ => none

/-- The marks without Markdown form. -/
def plainMarks : List MarkCls :=
  [.alignment, .annotation, .backgroundColor, .border, .breakout, .dataConsumer, .fragment, .subsup,
   .textColor, .underline]

end Verif.Spec
