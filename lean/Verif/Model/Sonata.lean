import Verif.Model.Messages

/-!
# Saving and loading networks

Models `knp/base-framework/impl/sonata/*`.  An HDF5 group is what was written into it: attributes and named datasets (a dataset
read returns what was written under that name).  Parameter structures are functions from member names to values; the declared
members of a type are listed in `NType.fields`, `SType.fields`.  The members written and read are tables copied from the macro
calls; reading a dataset that does not exist gives the default value (`read_parameter`, save_network.h:49-64).
Texts of the configuration files are not modelled (they are not read back, load_network.cpp:133-142), except that
building them can throw.
-/

namespace Knp.Sonata
open Knp

/-- Neuron types in the order of `ALL_NEURONS` (neuron-traits all_traits.h:42-43). -/
inductive NType where
  | blifat | resBlifat | altai | resAltai | lif
deriving Repr, DecidableEq

/-- Synapse types in the order of `ALL_SYNAPSES` (synapse-traits all_traits.h:40). -/
inductive SType where
  | delta | additive | resource
deriving Repr, DecidableEq

/-- `get_neuron_type_id` (type_id_defines.h:49-53). -/
def NType.id : NType → Nat
  | .blifat => 100 | .resBlifat => 101 | .altai => 102 | .resAltai => 103 | .lif => 104

/-- `get_synapse_type_id` (type_id_defines.h:38-42). -/
def SType.id : SType → Nat
  | .delta => 100 | .additive => 101 | .resource => 102

/-- Members of `neuron_parameters<BLIFATNeuron>` (blifat.h). -/
def blifatFields : List String := ["n_time_steps_since_last_firing_", "activation_threshold_", "additional_threshold_",
  "dynamic_threshold_", "threshold_decay_", "threshold_increment_", "postsynaptic_trace_", "postsynaptic_trace_decay_",
  "postsynaptic_trace_increment_", "inhibitory_conductance_", "inhibitory_conductance_decay_", "potential_",
  "pre_impact_potential_", "potential_decay_", "bursting_phase_", "bursting_period_", "reflexive_weight_",
  "reversal_inhibitory_potential_", "absolute_refractory_period_", "potential_reset_value_", "min_potential_",
  "total_blocking_period_", "dopamine_value_", "stochastic_stimulation_", "random_number_generator_state_"]

/-- Members of `neuron_parameters<AltAILIF>` (altai_lif.h). -/
def altaiFields : List String := ["is_diff_", "is_reset_", "leak_rev_", "saturate_", "do_not_save_", "potential_",
  "pre_impact_potential_", "activation_threshold_", "negative_activation_threshold_", "potential_leak_",
  "potential_reset_value_", "dopamine_value_", "additional_threshold_", "activity_time_"]

/-- Members added by `SynapticResourceSTDPNeuron` (stdp_synaptic_resource_rule.h). -/
def ruleFields : List String := ["synapse_sum_threshold_coefficient_", "dopamine_plasticity_time_", "free_synaptic_resource_",
  "synaptic_resource_threshold_", "resource_drain_coefficient_", "stability_", "stability_change_parameter_",
  "stability_change_at_isi_", "isi_max_", "d_h_", "isi_status_", "last_step_", "last_spike_step_", "first_isi_spike_",
  "is_being_forced_"]

/-- All members of the parameter structure of a neuron type. -/
def NType.fields : NType → List String
  | .blifat => blifatFields
  | .resBlifat => blifatFields ++ ruleFields
  | .altai => altaiFields
  | .resAltai => altaiFields ++ ruleFields
  | .lif => ["potential_", "potential_reset_value_", "activation_threshold_", "leak_coefficient_", "refract_counter_",
      "refract_period_"]

/-- All members of the parameter structure of a synapse type (delta.h, stdp_synaptic_resource_rule.h); `rule_` members are
written `rule_.x`.  Additive synapses can be neither saved nor loaded. -/
def SType.fields : SType → List String
  | .resource => ["weight_", "delay_", "output_type_", "rule_.synaptic_resource_", "rule_.w_min_", "rule_.w_max_", "rule_.d_u_",
      "rule_.dopamine_plasticity_period_", "rule_.last_spike_step_", "rule_.had_hebbian_update_", "rule_.has_contributed_"]
  | _ => ["weight_", "delay_", "output_type_"]

/-- A dataset written or read: (path inside the entity's group, member). -/
abbrev Cell := String × String

/-- Datasets of "static" parameters in group "0", under the member's own name. -/
def static0 (l : List String) : List Cell := l.map (fun f => ("0/" ++ f, f))

/-- Datasets in the subgroup "dynamics_params". -/
def dyn (l : List String) : List Cell := l.map (fun f => ("0/dynamics_params/" ++ f, f))

def blifatStatic : List String := ["n_time_steps_since_last_firing_", "activation_threshold_", "threshold_decay_",
  "threshold_increment_", "postsynaptic_trace_", "postsynaptic_trace_decay_", "postsynaptic_trace_increment_",
  "inhibitory_conductance_", "inhibitory_conductance_decay_", "potential_decay_", "bursting_period_", "reflexive_weight_",
  "reversal_inhibitory_potential_", "absolute_refractory_period_", "potential_reset_value_", "min_potential_"]

def altaiStatic : List String := ["is_diff_", "is_reset_", "leak_rev_", "saturate_", "do_not_save_", "activation_threshold_",
  "negative_activation_threshold_", "potential_leak_", "potential_reset_value_"]

def ruleStatic : List String := ["free_synaptic_resource_", "synaptic_resource_threshold_", "resource_drain_coefficient_",
  "stability_", "stability_change_parameter_", "stability_change_at_isi_", "isi_max_", "d_h_", "last_step_",
  "last_spike_step_", "first_isi_spike_", "is_being_forced_", "dopamine_plasticity_time_", "isi_status_"]

/-- What `add_population_to_h5` writes: blifat_neuron.cpp:48-93, resource_blifat_neuron.cpp:77-129, altai_lif_neuron.cpp:47-78,
resource_altai_lif_neuron.cpp:76-112, lif_neuron.cpp:47-73. -/
def NType.saved : NType → List Cell
  | .blifat => static0 (blifatStatic ++ ["stochastic_stimulation_"]) ++
      dyn ["dynamic_threshold_", "potential_", "pre_impact_potential_", "bursting_phase_", "total_blocking_period_",
        "dopamine_value_", "random_number_generator_state_"]
  | .resBlifat => static0 (blifatStatic ++ ["stochastic_stimulation_"] ++ ruleStatic) ++
      dyn ["dynamic_threshold_", "potential_", "pre_impact_potential_", "bursting_phase_", "total_blocking_period_",
        "dopamine_value_", "additional_threshold_", "random_number_generator_state_"]
  | .altai => static0 altaiStatic ++ dyn ["potential_"]
  | .resAltai => static0 (altaiStatic ++ ruleStatic) ++ dyn ["dopamine_value_", "additional_threshold_"]
  | .lif => static0 ["activation_threshold_", "leak_coefficient_", "refract_period_"] ++ dyn ["potential_", "refract_counter_"]

/-- What `load_population` reads: blifat_neuron.cpp:96-130, resource_blifat_neuron.cpp:158-205, altai_lif_neuron.cpp:81-105,
resource_altai_lif_neuron.cpp:141-176, lif_neuron.cpp:76-95. -/
def NType.loaded : NType → List Cell
  | .blifat => static0 blifatStatic ++
      dyn ["dynamic_threshold_", "potential_", "pre_impact_potential_", "bursting_phase_", "total_blocking_period_", "dopamine_value_"]
  | .resBlifat => static0 (blifatStatic ++ ruleStatic) ++
      dyn ["dynamic_threshold_", "potential_", "pre_impact_potential_", "bursting_phase_", "total_blocking_period_",
        "dopamine_value_", "additional_threshold_"]
  | .altai => static0 altaiStatic ++ dyn ["potential_"]
  | .resAltai => static0 (altaiStatic ++ ruleStatic) ++ dyn ["dopamine_value_", "additional_threshold_"]
  | .lif => static0 ["activation_threshold_", "leak_coefficient_", "refract_period_"] ++ dyn ["potential_", "refract_counter_"]

/-- Datasets of a synapse group: delta_synapse.cpp:157-159 / 60-67, resource_delta_synapse.cpp:119-131 / 145-153, 177-185 (the
same names are written and read). -/
def SType.saved : SType → List Cell
  | .resource => [("0/syn_weight", "weight_"), ("0/delay", "delay_"), ("0/output_type_", "output_type_"),
      ("0/rule_d_u_", "rule_.d_u_"), ("0/rule_had_hebbian_update_", "rule_.had_hebbian_update_"),
      ("0/rule_has_contributed_", "rule_.has_contributed_"), ("0/rule_synaptic_resource_", "rule_.synaptic_resource_"),
      ("0/rule_last_spike_step_", "rule_.last_spike_step_"),
      ("0/rule_dopamine_plasticity_period_", "rule_.dopamine_plasticity_period_"), ("0/rule_w_max_", "rule_.w_max_"),
      ("0/rule_w_min_", "rule_.w_min_")]
  | _ => [("0/syn_weight", "weight_"), ("0/delay", "delay_"), ("0/output_type_", "output_type_")]

/-- See `SType.saved`. -/
def SType.loaded : SType → List Cell
  | .resource => [("0/syn_weight", "weight_"), ("0/delay", "delay_"), ("0/output_type_", "output_type_"),
      ("0/rule_d_u_", "rule_.d_u_"), ("0/rule_had_hebbian_update_", "rule_.had_hebbian_update_"),
      ("0/rule_has_contributed_", "rule_.has_contributed_"), ("0/rule_synaptic_resource_", "rule_.synaptic_resource_"),
      ("0/rule_last_spike_step_", "rule_.last_spike_step_"),
      ("0/rule_dopamine_plasticity_period_", "rule_.dopamine_plasticity_period_"), ("0/rule_w_max_", "rule_.w_max_"),
      ("0/rule_w_min_", "rule_.w_min_")]
  | _ => [("0/syn_weight", "weight_"), ("0/delay", "delay_"), ("0/output_type_", "output_type_")]

/-- A parameter structure. -/
abbrev Params (V : Type) := String → V

/-- Assignment of a member. -/
def Params.set {V : Type} (x : Params V) (f : String) (v : V) : Params V := fun g => if g = f then v else x g

/-- A population. -/
structure Pop (V : Type) where
  uid : UID
  type : NType
  neurons : List (Params V)

/-- A synapse. -/
structure Syn (V : Type) where
  source : Nat
  target : Nat
  data : Params V

/-- A projection. -/
structure Proj (V : Type) where
  uid : UID
  pre : UID
  post : UID
  type : SType
  locked : Bool
  synapses : List (Syn V)

/-- A network. -/
structure Net (V : Type) where
  uid : UID
  populations : List (Pop V)
  projections : List (Proj V)

/-- A group under "nodes" or "edges".  `typeIds` is node_type_id / edge_type_id; for edges also the end nodes, their populations
and the lock attribute. -/
structure Group (V : Type) where
  name : UID
  typeIds : List Nat
  data : List (String × List V)
  sources : List Nat := []
  targets : List Nat := []
  pre : UID := 0
  post : UID := 0
  isLocked : Option Bool := none

/-- The two files: "nodes" and "edges" groups in name order (`getObjectName(i)` counts in name order; a name is the UID as
text, whose order is that of the UID's number), network UID. -/
structure File (V : Type) where
  networkUid : Option UID
  nodes : List (Group V)
  edges : List (Group V)

variable {V : Type}

/-- `add_population_to_h5` (one group; citations at `NType.saved`; saving_initialization.h:38-63). -/
def savePop (p : Pop V) : Group V :=
  { name := p.uid, typeIds := List.replicate p.neurons.length p.type.id,
    data := p.type.saved.map (fun c => (c.1, p.neurons.map (fun x => x c.2))) }

/-- `add_projection_to_h5` (delta_synapse.cpp:110-161, resource_delta_synapse.cpp:72-132; additive_delta_synapse.cpp:52-58
throws). -/
def saveProj (p : Proj V) : Outcome (Group V) :=
  if p.type = .additive then .throw "AdditiveDeltaSynapse saving unimplemented."
  else .ok { name := p.uid, typeIds := List.replicate p.synapses.length p.type.id,
             data := p.type.saved.map (fun c => (c.1, p.synapses.map (fun s => s.data c.2))),
             sources := p.synapses.map (fun s => s.source), targets := p.synapses.map (fun s => s.target),
             pre := p.pre, post := p.post, isLocked := some p.locked }

/-- Loop over projections (save_network.cpp:162-171); `createGroup` of an existing name throws. -/
def saveProjs : List (Proj V) → List (Group V) → Outcome (List (Group V))
  | [], acc => .ok acc
  | p :: ps, acc => match saveProj p with
    | .ok g => if acc.any (fun h => h.name == g.name) then .throw "group exists" else saveProjs ps (acc ++ [g])
    | .throw e => .throw e
    | .ub => .ub

/-- Loop over populations (save_network.cpp:177-187). -/
def savePops : List (Pop V) → List (Group V) → Outcome (List (Group V))
  | [], acc => .ok acc
  | p :: ps, acc => if acc.any (fun h => h.name == p.uid) then .throw "group exists" else savePops ps (acc ++ [savePop p])

/-- Order of names. -/
def byName (a b : Group V) : Bool := decide (a.name ≤ b.name)

/-- `save_network` (save_network.cpp:146-196).  `make_populations_list` / `make_projections_list` remove the last character of an
empty string if there are no entities: `resize(size_t(-1))` throws. -/
def saveNetwork (n : Net V) : Outcome (File V) :=
  match saveProjs n.projections [] with
  | .throw e => .throw e
  | .ub => .ub
  | .ok edges => match savePops n.populations [] with
    | .throw e => .throw e
    | .ub => .ub
    | .ok nodes =>
      if n.populations.isEmpty || n.projections.isEmpty then .throw "length_error"
      else .ok ⟨some n.uid, sortBy byName nodes, sortBy byName edges⟩

/-- `read_parameter` (save_network.h:49-64). -/
def readParam (g : Group V) (path : String) (size : Nat) (dflt : V) : List V :=
  match g.data.lookup path with
  | some l => l
  | none => List.replicate size dflt

/-- `for (i < min(values.size(), target.size())) target[i].parameter = values[i]` (load_network.h:49-55). -/
def assign (f : String) : List (Params V) → List V → List (Params V)
  | x :: xs, v :: vs => x.set f v :: assign f xs vs
  | xs, _ => xs

/-- All LOAD macros of a type, applied to default-constructed parameters. -/
def loadParams (g : Group V) (cells : List Cell) (size : Nat) (dflt : Params V) : List (Params V) :=
  cells.foldl (fun target c => assign c.2 target (readParam g c.1 size (dflt c.2))) (List.replicate size dflt)

/-- The neuron type with this id (the if-chain of load_network.cpp:106-115). -/
def typeOfId (i : Nat) : Option NType :=
  if i = NType.blifat.id then some .blifat else if i = NType.resBlifat.id then some .resBlifat
  else if i = NType.altai.id then some .altai else if i = NType.resAltai.id then some .resAltai
  else if i = NType.lif.id then some .lif else none

/-- The synapse type with this id (load_network.cpp:78-81): additive synapses are not in the chain. -/
def synTypeOfId (i : Nat) : Option SType :=
  if i = SType.delta.id then some .delta else if i = SType.resource.id then some .resource else none

/-- `load_populations` (load_network.cpp:88-120): `[0]` of an empty vector is undefined; an unknown type is skipped. -/
def loadPops (dn : NType → Params V) : List (Group V) → Outcome (List (Pop V))
  | [] => .ok []
  | g :: gs => match g.typeIds with
    | [] => .ub
    | i :: _ => match loadPops dn gs with
      | .throw e => .throw e
      | .ub => .ub
      | .ok rest => match typeOfId i with
        | none => .ok rest
        | some t => .ok (⟨g.name, t, loadParams g t.loaded g.typeIds.length (dn t)⟩ :: rest)

/-- Synapses from parameters, sources and targets (delta_synapse.cpp:78-89, resource_delta_synapse.cpp:164-174).  Simplified:
for files whose datasets have the same length. -/
def zipSyns : List (Params V) → List Nat → List Nat → List (Syn V)
  | x :: xs, s :: ss, t :: ts => ⟨s, t, x⟩ :: zipSyns xs ss ts
  | _, _, _ => []

/-- `load_projections` (load_network.cpp:63-85) and `load_projection` (delta_synapse.cpp:50-107,
resource_delta_synapse.cpp:135-202); without the attribute the lock flag keeps its default `true` (projection.h:432). -/
def loadProjs (ds : SType → Params V) : List (Group V) → Outcome (List (Proj V))
  | [] => .ok []
  | g :: gs => match g.typeIds with
    | [] => .ub
    | i :: _ => match loadProjs ds gs with
      | .throw e => .throw e
      | .ub => .ub
      | .ok rest => match synTypeOfId i with
        | none => .ok rest
        | some t => .ok (⟨g.name, g.pre, g.post, t, g.isLocked.getD true,
            zipSyns (loadParams g t.loaded g.typeIds.length (ds t)) g.sources g.targets⟩ :: rest)

/-- `load_network` (load_network.cpp:157-177); a missing network UID is replaced by a new one (`fresh`). -/
def loadNetwork (dn : NType → Params V) (ds : SType → Params V) (fresh : UID) (f : File V) : Outcome (Net V) :=
  match loadPops dn f.nodes with
  | .throw e => .throw e
  | .ub => .ub
  | .ok pops => match loadProjs ds f.edges with
    | .throw e => .throw e
    | .ub => .ub
    | .ok projs => .ok ⟨f.networkUid.getD fresh, pops, projs⟩

/-! ### Type tables -/

/-- `add_neuron_type_to_csv` (type_id_defines.h:60-97): the table is the list of type ids; `none` is a missing file.  After
creating the file it is loaded and searched; `height = rows - 1`, so the last row is not looked at; for a table without rows
the loop reads outside it. -/
def addNeuronType (t : Nat) (file : Option (List Nat)) : Outcome (List Nat) :=
  let rows := match file with
    | none => [t]
    | some l => l
  if rows = [] then .ub
  else if rows.dropLast.contains t then .ok rows else .ok (rows ++ [t])

/-- `add_synapse_type_to_csv` (type_id_defines.h:100-139). -/
def addSynapseType (t : Nat) (file : Option (List Nat)) : Outcome (List Nat) :=
  match file with
  | none => .ok [t]
  | some rows => if rows = [] then .ub else if rows.dropLast.contains t then .ok rows else .ok (rows ++ [t])

/-- A sequence of additions starting without a file. -/
def addAll (add : Nat → Option (List Nat) → Outcome (List Nat)) : List Nat → Option (List Nat) → Outcome (Option (List Nat))
  | [], file => .ok file
  | t :: ts, file => match add t file with
    | .ok l => addAll add ts (some l)
    | .throw e => .throw e
    | .ub => .ub

end Knp.Sonata
