/-
The error strategies the modelled runtime library may have.
-/
import Verif.Model.Adaptive
import Verif.Model.ParserAtnData
import Verif.Model.Recovery

set_option autoImplicit false

namespace Fcsql

/-- Its predictor, and its complaint when prediction fails, are those of the modelled runtime library (Model/Adaptive.lean);
its choices when there is an error (what to delete, to imagine, to skip) are arbitrary. -/
structure Strategy.Antlr {σ : Type} (S : Strategy σ) : Prop where
  predictor : S.toPredictor = parserAtn.simulator.predictor
  noViable : ∀ m d ctx ts, (S.onNoViable m d ctx ts).1 = parserAtn.offending d ctx ts

end Fcsql
