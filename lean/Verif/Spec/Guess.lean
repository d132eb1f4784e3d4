import Verif.Model.Guess
import Verif.Spec.TimeLoop

/-!
# What the initial guess has to be
-/

namespace Verif.Guess.Spec

variable {K L W : Type} [Field K] [AddCommGroup W] [Module K W]

/-- The straight line through the last two solutions (newest first, the newer one is `d` later), continued by `dt`. -/
def line (dt d : K) (u u1 : W) : W := u + (dt / d) • (u - u1)

/-- One step of the explicit Euler method for `M u' + R(u) = 0`. -/
def eulerStep (minv : W → W) (R : W → W) (dt : K) (u : W) : W := u - dt • minv (R u)

/-- One step of the midpoint rule. -/
def midpointStep (minv : W → W) (R : W → W) (dt : K) (u : W) : W := u - dt • minv (R (u - (dt / 2) • minv (R u)))

end Verif.Guess.Spec
