import Verif.Model.Storage

/-!
# The weight of a synapse in floating point

`Verif/Model/Stdp.lean` computes in an ordered field.  Here the formula of the weight is computed as the code does it, every operation
rounded to the nearest `p`-bit number, ties to even (`p = 24` for `float`); no overflow, no subnormal numbers.
-/

namespace Knp.Stdp
open Knp Knp.Store

/-- knp/backends/cpu/cpu-library/include/knp/backends/cpu-library/impl/populations/training/stdp.h:48-51, with every operation
rounded: `w_min + weight_diff * syn_w / (weight_diff + syn_w)` for `syn_w = max(resource, 0)`, `weight_diff = w_max - w_min`. -/
def weightRounded (p : Nat) (wMin wMax resource : Rat) : Rat :=
  let synW := max resource 0
  let weightDiff := rnd p (wMax - wMin)
  rnd p (wMin + rnd p (rnd p (weightDiff * synW) / rnd p (weightDiff + synW)))

end Knp.Stdp
