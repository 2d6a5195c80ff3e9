import Verif.Model.Projection

/-! Specification vocabulary for C01–C04. -/

namespace Knp.Spec
variable {P : Type}

/-- `l` is an exact answer to "which positions hold a synapse whose source (target) is `n`":
no position twice, and exactly the right ones. -/
def ExactLookup (syn : List (Synapse P)) (n : Nat) (c : Search) (l : List Nat) : Prop :=
  l.Nodup ∧
  ∀ i, i ∈ l ↔ ∃ s, syn[i]? = some s ∧
    (match c with
     | .byPresynaptic => s.src = n
     | .byPostsynaptic => s.dst = n)

/-- What a caller can know about the lookup cache from the calls made so far (and their visible
results): `cold` – contents changed since the last lookup; `warm` – a lookup happened since the last
change; `stale` – synapses were removed by target neuron, or endpoints were edited in place, while
the cache was warm. -/
inductive Cache where
  | cold
  | warm
  | stale
deriving Repr, DecidableEq

/-- How a call changes that knowledge. -/
def Cache.next (st : Cache) : Projection.Op P → Projection.Out → Cache
  | .find .., _ => match st with | .cold => .warm | s => s
  | .add .., _ => .cold
  | .removeSynapse .., _ => .cold
  | .removeIf .., _ => .cold
  | .removePre .., _ => .cold
  | .clear, _ => match st with | .cold => .cold | _ => .warm
  | .removePost .., .count 0 => match st with | .cold => .cold | _ => .warm
  | .removePost .., _ => match st with | .cold => .cold | _ => .stale
  | .setSynapse .., _ => match st with | .cold => .cold | _ => .stale
  | .setParams .., _ => st
  | .lock, _ => st
  | .unlock, _ => st

/-- The knowledge after a whole history. -/
def Cache.track (st : Cache) : List (Projection.Op P) → List Projection.Out → Cache
  | o :: os, out :: outs => Cache.track (st.next o out) os outs
  | _, _ => st

/-- A projection as the constructors produce it. -/
inductive Constructed : Projection P → Cache → Prop where
  | empty : Constructed Projection.mkEmpty .cold
  | generated (gen : SynapseGenerator P) (n : Nat) : Constructed (Projection.mkGenerated gen n) .warm

end Knp.Spec
