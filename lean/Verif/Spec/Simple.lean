import Verif.Model.Neurons

/-!
# What a neuron with a loop does
-/

namespace Knp.Spec
open Knp Knp.Neurons

/-- A neuron that fires `delayIn` steps after every input spike and `delayLoop` steps after each of its own. -/
inductive Rings (delayIn delayLoop : Nat) (input : Nat → Bool) : Nat → Prop
  | input (t : Nat) : input t = true → Rings delayIn delayLoop input (t + delayIn)
  | again (t : Nat) : Rings delayIn delayLoop input t → Rings delayIn delayLoop input (t + delayLoop)

/-- `n` impacts of weight 1 on a potential of 0. -/
def ones {F : Type} [Arith F] : Nat → F
  | 0 => 0
  | n + 1 => ones n + 1

/-- What the theorems need of the arithmetic; exact arithmetic and IEEE floating-point arithmetic (of finite numbers) have it. -/
structure Counts {F : Type} [Arith F] (reversal minPotential : F) : Prop where
  zero : (0 : F) * 0 = 0
  zeroZero : (0 : F) + 0 = 0
  one : (1 : F) + 0 + 0 = 1
  pos : Arith.lt (0 : F) 1 = true
  below : Arith.le (1 : F) 0 = false
  reached : ∀ n, Arith.le (1 : F) (ones (n + 1)) = true
  kept : ∀ n, (ones n : F) - (ones n - reversal) * 0 = ones n
  low : Arith.lt (0 : F) minPotential = false

end Knp.Spec
