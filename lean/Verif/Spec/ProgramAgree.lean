import Verif.Spec.Program
import Verif.Spec.LearnAgree

/-!
# Notions for comparing runs of programs

Two runs are compared up to the order inside messages, as in C107 and C124.
-/

namespace Knp.Spec
open Knp Knp.Sys Knp.Prog Knp.Props

variable {σ F : Type}

/-- Messages that differ at most in the order inside. -/
def SameMsg : Message F → Message F → Prop
  | .spike a, .spike b => SameSpikeMsg a b
  | .impact a, .impact b => SameImpactMsg a b
  | _, _ => False

/-- A program none of whose functions looks at the order inside a message. -/
structure OrderBlind (c : Code σ F) : Prop where
  handle : ∀ k u ms ms', List.Forall₂ SameSpikeMsg ms ms' → c.handle k u ms = c.handle k u ms'
  observe : ∀ k u ms ms', List.Forall₂ SameMsg ms ms' → c.observe k u ms = c.observe k u ms'

/-- Iterations in which the same happened: the same step number, the same answers of generators and handlers, the same messages
for everyone up to the order inside. -/
structure SameIter (i i' : Iter F) : Prop where
  time : i.time = i'.time
  fed : i.fed = i'.fed
  out : SameStep i.out i'.out
  got : List.Forall₂ (List.Forall₂ SameSpikeMsg) (i.handled.map (·.1)) (i'.handled.map (·.1))
  answers : i.handled.map (·.2) = i'.handled.map (·.2)
  observed : List.Forall₂ (List.Forall₂ SameMsg) i.observed i'.observed

/-- Items in which the same happened. -/
def SameItem : Item F → Item F → Prop
  | .iter i, .iter i' => SameIter i i'
  | .halt t fed, .halt t' fed' => t = t' ∧ fed = fed'
  | .read n a b got, .read n' a' b' got' => n = n' ∧ a = a' ∧ b = b' ∧ List.Forall₂ SameSpikeMsg got got'
  | _, _ => False

end Knp.Spec
