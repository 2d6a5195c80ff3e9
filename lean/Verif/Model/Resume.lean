import Verif.Model.Learn

/-!
# Carrying on with a copy of a running network

Models `knp/base-framework/impl/synchronization.cpp` on the state of a running backend: the copy of the network taken from a
backend between two steps, loaded into a new backend.
-/

namespace Knp.Sys
open Knp

variable {N F : Type}

/-- `get_network_copy` (synchronization.cpp:26-41) through `get_network_data` (get_network.cpp:80-93 of the single-threaded
backend): the populations as they are now, and of every projection its contents (`arg_` of the wrapper, get_network.cpp:73) without
its queue of messages (`messages_`). -/
def networkNow (s : State N F) : List (PopSt N F) × List (Delta.Ident × Delta.Proj F) :=
  (s.pops, s.projs.map (fun j => (j.ident, j.proj)))

/-- A new backend with that copy loaded, channels and input projections as for the first one. -/
def resume (s : State N F) (inputs : List (UID × UID)) (chans : Nat) : State N F :=
  boot (networkNow s).1 (networkNow s).2 inputs chans

end Knp.Sys

namespace Knp.Learn
open Knp

variable {N B F : Type} [Field F] [LinearOrder F]

/-- The same for a network that learns: the copy holds neurons and synapses as they are now, with the steps they remember, and
no waiting messages; the lock of a projection is part of its contents (projection.h:432).  The new backend counts its steps from
0 (core-library/include/knp/core/backend.h:456). -/
def resume (o : Stdp.Ops F) (s : State (Pop N B F) (Proj F) F) (inputs : List (UID × UID)) (chans : Nat) :
    State (Pop N B F) (Proj F) F :=
  boot (machine o) s.pops (s.projs.map (fun j => { j with queue := [] })) inputs chans

end Knp.Learn
