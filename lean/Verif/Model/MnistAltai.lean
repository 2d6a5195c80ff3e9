import Verif.Model.Mnist

/-!
# The MNIST example with AltAI neurons

Models `/repo/examples/mnist-learn/models/altai`: `construct_network.cpp` and `prepare_network_for_inference.cpp` as a whole (its steps are in
`Verif.Model.Inference`).  The numbers of `hyperparameters.h` and `global_config.h` are parameters, those of `construct_network.cpp` are exact
decimals.  Simplification, as in `Verif.Model.Mnist`: the lookup by neuron of a projection gives the synapses in their order.
-/

namespace Knp.Mnist.Altai
open Knp Knp.Neurons Knp.Stdp Knp.Infer Knp.Mnist

/-- What `altai/hyperparameters.h` and `global_config.h` fix: sizes, the neurons of the input population and of the others
(construct_network.cpp:66-79), limits and dopamine period of the trained synapses (l. 107-112). `eps` is that of `resource_from_weight`. -/
structure Params (F : Type) where
  classes : Nat
  perColumn : Nat
  inputSize : Nat
  inputNeuron : Res (AltAi F) F
  otherNeuron : Res (AltAi F) F
  wMin : F
  wMax : F
  eps : F
  period : Nat

/-- `classes_amount * neurons_per_column` (construct_network.cpp:83). -/
def Params.inputs {F : Type} (p : Params F) : Nat := p.perColumn * p.classes

/-- Neurons of a population. -/
abbrev Body (F : Type) := List (Res (AltAi F) F)

variable {F : Type} [Field F] [LinearOrder F]

/-- The raster projection (construct_network.cpp:106-121): all to all, trained, starting with weight 0. -/
def rasterProj (p : Params F) : Outcome (JBody F) :=
  (resourceFromWeight p.eps 0 p.wMin p.wMax).bind fun r =>
  (Gen.allToAll 0 0 p.inputSize p.inputs (fun _ _ => (⟨r, p.wMin, p.wMax, 0, p.period, 0, false, false⟩ : SynRule F))).bind fun c =>
  .ok (false, resourceSyns c.synapses)

/-- The projection that resets (l. 140-153): all to all. -/
def resetProj (p : Params F) : Outcome (JBody F) :=
  (Gen.allToAll 0 0 p.classes p.inputs (fun _ _ => (⟨-30000, 4, .excitatory⟩ : DeltaParams F))).bind fun c => .ok (true, deltaSyns c.synapses)

/-- `create_populations` and `create_projections` (construct_network.cpp:64-203) as calls of the constructor.  Populations by number: 0 input, 1 output,
2 gate, 3 raster, 4 target.  Population type 2 is SynapticResourceSTDPAltAILIF, projection type 0 delta, 1 resource STDP. -/
def calls (p : Params F) : Outcome (List (Infer.Op (Body F) (JBody F))) :=
  (rasterProj p).bind fun raster =>
  (alignedProj p.classes p.inputs ⟨179376 / 1000, 3, .dopamine⟩).bind fun reward =>
  (resetProj p).bind fun reset =>
  (alignedProj p.classes p.classes ⟨10000, 1, .excitatory⟩).bind fun labelToGate =>
  (alignedProj p.inputs p.classes ⟨10000, 1, .excitatory⟩).bind fun toOutput =>
  (alignedProj p.classes p.classes ⟨-10, 1, .blocking⟩).bind fun toGate =>
  (alignedProj p.classes p.inputs ⟨10000, 1, .excitatory⟩).bind fun gateToInput =>
  .ok [.population false true 2 (List.replicate p.inputs p.inputNeuron),
       .population true true 2 (List.replicate p.classes p.otherNeuron),
       .population false false 2 (List.replicate p.classes p.otherNeuron),
       .channeled true,
       .channeled false,
       .projection 3 0 1 raster false,
       .projection 4 0 0 reward false,
       .projection 4 0 0 reset false,
       .projection 4 2 0 labelToGate false,
       .projection 0 1 0 toOutput true,
       .projection 1 2 0 toGate false,
       .projection 2 0 0 gateToInput false]

/-- The parts of `AnnotatedNetwork` the example fills itself (annotated_network.h:36-93). -/
structure Annotated (P J : Type) where
  builder : Builder P J
  fromRaster : List UID
  fromClasses : List UID
  wtaData : List (List UID × List UID)
  wtaBorders : List Nat

/-- `construct_network<AltAILIF>` (construct_network.cpp:207-228); `fresh` is the first free UID.  Populations and projections get `fresh`, `fresh + 1`, … in the
order of their creation.  `wta_data_` gets the input population as sender (l. 221) and the projection to the output population as receiver
(l. 181), `projections_from_raster_` the first projection (l. 121), `projections_from_classes_` the second, third and fourth (l. 135, 153, 166). -/
def construct (p : Params F) (fresh : Nat) : Outcome (Annotated (Body F) (JBody F)) :=
  (calls p).bind fun ops =>
  .ok { builder := (Builder.new fresh).run ops
        fromRaster := [fresh + 3]
        fromClasses := [fresh + 4, fresh + 5, fresh + 6]
        wtaData := [([fresh], [fresh + 7])]
        wtaBorders := (List.range p.classes).map (fun i => p.perColumn * (i + 1)) }

omit [Field F] [LinearOrder F] in
/-- The populations after `load_all_populations`, as `Knp.Mnist.loadPops`. -/
def loadPops {N J : Type} (arith : Arith F) (n : Network (Body F) J) : List (Learn.Pop N (AltAi F) F) :=
  n.populations.map (fun e => .trained e.uid (@resAltai F arith) altaiOps e.body)

omit [Field F] [LinearOrder F] in
/-- The projections after `load_all_projections`, as `Knp.Mnist.loadProjs`. -/
def loadProjs {P : Type} (n : Network P (JBody F)) : List (Learn.Proj F) :=
  n.projections.map (fun e => ⟨⟨e.uid, e.pre, e.post, e.kind == 0⟩, e.body.1, e.body.2, []⟩)

/-- `prepare_network_for_inference<AltAILIF>` (altai/prepare_network_for_inference.cpp:107-142): `trained` is what the backend holds after the training,
`next` the first free UID.  Of a neuron and a synapse only what quantisation changes is looked at. -/
def prepare {P J R S : Type} [FloorRing F] (a : Annotated P J) (nan : F) (next : Nat) (trained : Network (List (Neuron F R)) (List (Infer.Syn F S))) :
    Outcome (Network (List (Neuron F R)) (List (Infer.Syn F S))) :=
  (replaceWta a.wtaData (restore a.builder.keepPops a.builder.keepProjs trained, next)).bind fun r => quantize nan 2 r.1

end Knp.Mnist.Altai
