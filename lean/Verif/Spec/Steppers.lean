import Verif.Model.Steppers
import Verif.Spec.RungeKutta
import Verif.Spec.Midpoint

/-! # The recipe (textbook formula) of each explicit stepper -/

namespace Verif
variable {K V W : Type} [Add K] [Sub K] [Mul K] [Div K] [IntCast K] [Neg K] [StateOps K V]

def ExplicitStepper.recipe : ExplicitStepper K → Recipe K V W
  | .euler => eulerStep
  | .generic T => rkStep T
  | .rk4 => rkStep rk4Tableau
  | .rk4Classic => rk4ClassicStep
  | .cashKarp => rkStep cashKarpTableau
  | .cashKarpClassic => cashKarpClassicStep
  | .fehlberg => rkStep fehlbergTableau
  | .midpoint m => midpointStep m

def ErrorStepper.errRecipe : ErrorStepper K → Recipe K V W (V × V)
  | .generic T b2 => rkErrStep T b2
  | .cashKarp => rkErrStep cashKarpTableau cashKarpDb
  | .cashKarpClassic => cashKarpClassicErrStep
  | .fehlberg => rkErrStep fehlbergTableau fehlbergDb

end Verif
