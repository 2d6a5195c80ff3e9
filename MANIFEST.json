{
 "claims": [
  {
   "property": "C01",
   "status": "partial",
   "theorems": [
    "Knp.Props.C01_lookup_exact_partial",
    "Knp.Props.C01_lookup_refuted"
   ],
   "note": "Full statement C01_statement is false of the code (stale lookup index after removing a target neuron's synapses or editing endpoints with a warm cache); refuted by a witness, and proved for every history that does not end in that situation."
  },
  {
   "property": "C02",
   "status": "proved",
   "theorems": [
    "Knp.Props.C02_remove_by_target"
   ],
   "note": "Any projection state, any cache state."
  },
  {
   "property": "C03",
   "status": "proved",
   "theorems": [
    "Knp.Props.C03_remove_if",
    "Knp.Props.C03_remove_by_source",
    "Knp.Props.C03_remove_at"
   ],
   "note": ""
  },
  {
   "property": "C04",
   "status": "proved",
   "theorems": [
    "Knp.Props.C04_add_synapses",
    "Knp.Props.C04_construct"
   ],
   "note": "Generator modelled as a pure function of the index."
  },
  {
   "property": "C05",
   "status": "partial",
   "theorems": [
    "Knp.Props.C05_remove_neurons_partial",
    "Knp.Props.C05_remove_neurons_refuted",
    "Knp.Props.C05_remove_neurons_ub",
    "Knp.Props.C05_defined",
    "Knp.Props.C05_exact"
   ],
   "note": "Full statement refuted for unsorted index lists; proved for strictly ascending in-range lists.C05_defined: exactly when the call is defined; C05_exact: it removes exactly the listed neurons iff the list is strictly ascending and in range."
  },
  {
   "property": "C06",
   "status": "partial",
   "theorems": [
    "Knp.Props.C06_exactly_once_partial",
    "Knp.Props.C06_each_send_delivered_once_partial",
    "Knp.Props.C06_direct_add_sender_refuted"
   ],
   "note": "Conservation law for every message over every history; senders added through the Subscription reference are not delivered (refuted)."
  },
  {
   "property": "C07",
   "status": "proved",
   "theorems": [
    "Knp.Props.C07_stored_only_if_subscribed",
    "Knp.Props.C07_received_only_from_subscribed"
   ],
   "note": "Both at the moment of receipt and over whole histories."
  },
  {
   "property": "C08",
   "status": "partial",
   "theorems": [
    "Knp.Props.C08_order_partial",
    "Knp.Props.C08_order_refuted"
   ],
   "note": "False when the bus routes twice before the endpoint receives; proved for all histories that receive between routes."
  },
  {
   "property": "C09",
   "status": "proved",
   "theorems": [
    "Knp.Props.C09_route_drains",
    "Knp.Props.C09_route_count"
   ],
   "note": ""
  },
  {
   "property": "C10",
   "status": "proved",
   "theorems": [
    "Knp.Props.C10_unsubscribe",
    "Knp.Props.C10_nothing_after_unsubscribe"
   ],
   "note": ""
  },
  {
   "property": "C100",
   "status": "proved",
   "theorems": [
    "Knp.Props.C100_spikes_log"
   ],
   "note": "Messages of unnamed senders are undefined behaviour; the observer is subscribed to the named senders only."
  },
  {
   "property": "C101",
   "status": "partial",
   "theorems": [
    "Knp.Props.C101_status_partial",
    "Knp.Props.C101_refuted"
   ],
   "note": "False: the period is ignored."
  },
  {
   "property": "C102",
   "status": "partial",
   "theorems": [
    "Knp.Props.C102_sections_partial",
    "Knp.Props.C102_other",
    "Knp.Props.C102_refuted"
   ],
   "note": "Structure proved; false that weights are written: the synaptic resource is."
  },
  {
   "property": "C103",
   "status": "partial",
   "theorems": [
    "Knp.Props.C103_magic_partial",
    "Knp.Props.C103_version_refuted",
    "Knp.Props.C103_version_ub",
    "Knp.Props.C103_lengths",
    "Knp.Props.C103_lenient"
   ],
   "note": "The version check is wrong (witnesses)."
  },
  {
   "property": "C104",
   "status": "proved",
   "theorems": [
    "Knp.Props.C104_dataflow"
   ],
   "note": "Untrained projections; nobody else uses the backend's endpoint during a step."
  },
  {
   "property": "C105",
   "status": "proved",
   "theorems": [
    "Knp.Props.C105_end_to_end",
    "Knp.Props.C105_neuron_to_neuron"
   ],
   "note": "For nobody forging messages of the projection, valid delays (>= 1) and exact synapse lookup."
  },
  {
   "property": "C106",
   "status": "proved",
   "theorems": [
    "Knp.Props.C106_dataflow"
   ],
   "note": "Untrained projections; any schedule whose tasks all end."
  },
  {
   "property": "C107",
   "status": "partial",
   "theorems": [
    "Knp.Props.C107_backends_agree_partial",
    "Knp.Props.C107_kinds_commute",
    "Knp.Props.C107_refuted"
   ],
   "note": "False in general: a projection that hears two messages in a step loses one on threads (witness). Proved for runs without such steps, without blocking impacts and external impacts, order-insensitive neurons (all types, with exact addition)."
  },
  {
   "property": "C108",
   "status": "partial",
   "theorems": [
    "Knp.Props.C108_forced_reward_partial",
    "Knp.Props.C108_forced_punishment_partial",
    "Knp.Props.C108_no_dopamine",
    "Knp.Props.C108_punishment_raises",
    "Knp.Props.C108_refuted"
   ],
   "note": "False: an unforced punishment raises stability (D is negative and subtracted). Forced reward lowers it, forced punishment does nothing, as documented."
  },
  {
   "property": "C109",
   "status": "partial",
   "theorems": [
    "Knp.Props.C109_continued_partial",
    "Knp.Props.C109_started",
    "Knp.Props.C109_refuted"
   ],
   "note": "False, because every spike starts a new train (C59): a synapse is reinforced with each spike it contributed to. The rule itself keeps the promise inside a continued train."
  },
  {
   "property": "C11",
   "status": "partial",
   "theorems": [
    "Knp.Props.C11_filter_partial",
    "Knp.Props.C11_filter_refuted"
   ],
   "note": "The endpoint filter never shrinks (refuted); never too narrow and only ever-subscribed senders (proved)."
  },
  {
   "property": "C110",
   "status": "proved",
   "theorems": [
    "Knp.Props.C110_training_only"
   ],
   "note": ""
  },
  {
   "property": "C111",
   "status": "proved",
   "theorems": [
    "Knp.Props.C111_dataflow"
   ],
   "note": "Single-threaded backend; distinct UIDs; nobody else uses the backend's endpoint."
  },
  {
   "property": "C112",
   "status": "proved",
   "theorems": [
    "Knp.Props.C112_last_spike_step",
    "Knp.Props.C112_threads"
   ],
   "note": "For projections whose lookup is exact (C01), over whole runs of the backend."
  },
  {
   "property": "C113",
   "status": "proved",
   "theorems": [
    "Knp.Props.C113_end_to_end",
    "Knp.Props.C113_senders"
   ],
   "note": "Side conditions as C105: 32-bit neuron numbers, delay >= 1, steps below 2^64, no forged impacts.Every message a population is given is from a projection that ends at it."
  },
  {
   "property": "C114",
   "status": "partial",
   "theorems": [
    "Knp.Props.C114_additive_partial",
    "Knp.Props.C114_resource_refuted"
   ],
   "note": "Holds for additive-STDP projections over whole runs; false for resource-STDP projections, which are subscribed to their STDP populations but never filter them (concrete run)."
  },
  {
   "property": "C115",
   "status": "proved",
   "theorems": [
    "Knp.Props.C115_plain_neuron",
    "Knp.Props.C115_trained_neuron",
    "Knp.Props.C115_message"
   ],
   "note": "Single-threaded backend, all population types.C115_message: the exact spike message of a plain population in a step."
  },
  {
   "property": "C116",
   "status": "proved",
   "theorems": [
    "Knp.Props.C116_contents",
    "Knp.Props.C116_read",
    "Knp.Props.C116_conservation",
    "Knp.Props.C116_read_succeeds",
    "Knp.Props.C116_populations",
    "Knp.Props.C116_update"
   ],
   "note": "Single-threaded backend; the program's functions are arbitrary and may share state, but return and do not use the bus themselves; windows of reads as in C31.C116_update: a call of update by the program returns the whole buffer."
  },
  {
   "property": "C117",
   "status": "proved",
   "theorems": [
    "Knp.Props.C117_handler_input",
    "Knp.Props.C117_handler_delay",
    "Knp.Props.C117_handler_first"
   ],
   "note": "As C116; handler UIDs distinct from those of channels and populations."
  },
  {
   "property": "C118",
   "status": "proved",
   "theorems": [
    "Knp.Props.C118_observer"
   ],
   "note": "As C116."
  },
  {
   "property": "C119",
   "status": "proved",
   "theorems": [
    "Knp.Props.C119_dataflow",
    "Knp.Props.C119_learn_run",
    "Knp.Props.C119_start",
    "Knp.Props.C119_senders",
    "Knp.Props.C119_learn_run_threads",
    "Knp.Props.C119_dataflow_threads",
    "Knp.Props.C119_start_returns"
   ],
   "note": "As C116. C119_learn_run makes C111-C115 available for programs.A run of n iterations and a halt is what start does when the predicate says so."
  },
  {
   "property": "C12",
   "status": "partial",
   "theorems": [
    "Knp.Props.C12_remove_receiver_refuted",
    "Knp.Props.C12_remove_receiver_partial"
   ],
   "note": "Undefined behaviour exactly when there is something to remove."
  },
  {
   "property": "C120",
   "status": "proved",
   "theorems": [
    "Knp.Props.C120_channel"
   ],
   "note": "As C116; channel UIDs distinct."
  },
  {
   "property": "C121",
   "status": "partial",
   "theorems": [
    "Knp.Props.C121_split_partial",
    "Knp.Props.C121_split_refuted"
   ],
   "note": "True if generators return nothing in the pre-step calls that end runs; false otherwise, because the step whose predicate was false is fed twice (concrete program)."
  },
  {
   "property": "C122",
   "status": "proved",
   "theorems": [
    "Knp.Props.C122_user_code"
   ],
   "note": "As C116."
  },
  {
   "property": "C123",
   "status": "proved",
   "theorems": [
    "Knp.Props.C123_dataflow"
   ],
   "note": "Any schedule whose tasks all end; a training task is atomic (it works on its own population and the projections that end there). UIDs of populations, and of projections, distinct."
  },
  {
   "property": "C124",
   "status": "proved",
   "theorems": [
    "Knp.Props.C124_schedule_independent"
   ],
   "note": "Same multiplication of weights by counts, part sizes at least one, at most 2^63 neurons and synapses, sound lookups, order-insensitive neurons (all types, with exact addition: C107_kinds_commute) and no blocking impacts."
  },
  {
   "property": "C125",
   "status": "partial",
   "theorems": [
    "Knp.Props.C125_backends_agree_partial",
    "Knp.Props.C125_refuted"
   ],
   "note": "False in general: a resource projection that hears two messages in a step learns from one of them on threads (witness). Proved for runs without such steps, without blocking and external impacts; trained and plain populations, delta and resource projections."
  },
  {
   "property": "C126",
   "status": "proved",
   "theorems": [
    "Knp.Props.C126_end_to_end"
   ],
   "note": "Runs that end normally; at most 2^63 synapses, part size at least one, no forged sender UID in external impacts. A projection takes only the first message of a step (C45)."
  },
  {
   "property": "C127",
   "status": "partial",
   "theorems": [
    "Knp.Props.C127_fifo_partial",
    "Knp.Props.C127_exactly_once_partial",
    "Knp.Props.C127_late_refuted",
    "Knp.Props.C127_overflow_refuted"
   ],
   "note": "False in general: an endpoint not yet attached misses messages; a full pipe drops them silently (witness for every limit). Proved for connected endpoints while there is room, for all schedules. libzmq itself is trusted (see DESIGN.md); frames are assumed never 0 or 5 bytes long."
  },
  {
   "property": "C128",
   "status": "partial",
   "theorems": [
    "Knp.Props.C128_send_returns_partial",
    "Knp.Props.C128_after_route_partial",
    "Knp.Props.C128_send_blocks_refuted"
   ],
   "note": "False: after as many unrouted messages as the pipe takes, the next send never returns (for every limit). Proved below the limit. libzmq itself is trusted (see DESIGN.md); frames are assumed never 0 or 5 bytes long."
  },
  {
   "property": "C129",
   "status": "partial",
   "theorems": [
    "Knp.Props.C129_route_partial",
    "Knp.Props.C129_route_returns",
    "Knp.Props.C129_everyone",
    "Knp.Props.C129_count_refuted"
   ],
   "note": "Everything but the count is proved; the returned number counts identity frames too, i.e. two per message (documentation: number of messages). libzmq itself is trusted (see DESIGN.md); frames are assumed never 0 or 5 bytes long."
  },
  {
   "property": "C13",
   "status": "proved",
   "theorems": [
    "Knp.Props.C13_unload",
    "Knp.Props.C13_unload_history"
   ],
   "note": ""
  },
  {
   "property": "C130",
   "status": "partial",
   "theorems": [
    "Knp.Props.C130_same_per_sender_partial",
    "Knp.Props.C130_in_process",
    "Knp.Props.C130_across_senders_refuted"
   ],
   "note": "Proved per sender under the conditions of C127 and C08; across senders the order differs (witness). libzmq itself is trusted (see DESIGN.md); frames are assumed never 0 or 5 bytes long."
  },
  {
   "property": "C131",
   "status": "proved",
   "theorems": [
    "Knp.Props.C131_stored_only_if_subscribed",
    "Knp.Props.C131_received_only_from_subscribed"
   ],
   "note": " libzmq itself is trusted (see DESIGN.md); frames are assumed never 0 or 5 bytes long."
  },
  {
   "property": "C132",
   "status": "proved",
   "theorems": [
    "Knp.Props.C132_no_exceptions",
    "Knp.Props.C132_returns"
   ],
   "note": " libzmq itself is trusted (see DESIGN.md); frames are assumed never 0 or 5 bytes long."
  },
  {
   "property": "C133",
   "status": "partial",
   "theorems": [
    "Knp.Props.C133_never_runs",
    "Knp.Props.C133_refuted",
    "Knp.Props.C133_loaded_partial"
   ],
   "note": "False for load_all_*: such a network stays on the host and never makes a step (proved for every network and run). True for load_populations/load_projections. Model/Cuda: kernels with arbitrary thread orders; device memory as lists; BLIFAT populations and delta projections (the only types the backend has)."
  },
  {
   "property": "C134",
   "status": "partial",
   "theorems": [
    "Knp.Props.C134_general_partial",
    "Knp.Props.C134_burst",
    "Knp.Props.C134_burst_refuted",
    "Knp.Props.C134_single_partial",
    "Knp.Props.C134_only_first",
    "Knp.Props.C134_needs_input",
    "Knp.Props.C134_refuted",
    "Knp.Props.C134_repeated_refuted",
    "Knp.Props.C134_no_input_refuted",
    "Knp.Props.C134_threshold_refuted"
   ],
   "note": "False: only the first neuron can spike, once per impact of the first message, never without input, and the additional threshold is ignored (witness for each). bursts of a period above 1 differ. Proved: what the device computes for every population and message list, in terms of the CPU functions; equality for one neuron with one impact. Model/Cuda: kernels with arbitrary thread orders; device memory as lists; BLIFAT populations and delta projections (the only types the backend has)."
  },
  {
   "property": "C135",
   "status": "proved",
   "theorems": [
    "Knp.Props.C135_end_to_end"
   ],
   "note": "For populations with pairwise different projection UIDs; delays at least 1 and no overflow of step numbers. Model/Cuda: kernels with arbitrary thread orders; device memory as lists; BLIFAT populations and delta projections (the only types the backend has)."
  },
  {
   "property": "C136",
   "status": "proved",
   "theorems": [
    "Knp.Props.C136_no_echo"
   ],
   "note": "Model/Cuda: kernels with arbitrary thread orders; device memory as lists; BLIFAT populations and delta projections (the only types the backend has)."
  },
  {
   "property": "C137",
   "status": "partial",
   "theorems": [
    "Knp.Props.C137_spikes_once",
    "Knp.Props.C137_impacts_twice_partial",
    "Knp.Props.C137_arrives",
    "Knp.Props.C137_refuted",
    "Knp.Props.C137_nobody_refuted"
   ],
   "note": "True for spike messages; impact messages are sent exactly twice (for every network), and empty messages of nobody in steps 0 and 1. Model/Cuda: kernels with arbitrary thread orders; device memory as lists; BLIFAT populations and delta projections (the only types the backend has)."
  },
  {
   "property": "C138",
   "status": "partial",
   "theorems": [
    "Knp.Props.C138_fanout_partial",
    "Knp.Props.C138_once_partial",
    "Knp.Props.C138_refuted"
   ],
   "note": "False: each message arrives as often as entities are connected to the channel (proved exactly); once if there is one. Model/Cuda: kernels with arbitrary thread orders; device memory as lists; BLIFAT populations and delta projections (the only types the backend has)."
  },
  {
   "property": "C139",
   "status": "partial",
   "theorems": [
    "Knp.Props.C139_single_messages_partial",
    "Knp.Props.C139_refuted"
   ],
   "note": "False: a population spikes as often as the message that comes first has impacts. Proved if nobody is given two messages in a step. Model/Cuda: kernels with arbitrary thread orders; device memory as lists; BLIFAT populations and delta projections (the only types the backend has)."
  },
  {
   "property": "C14",
   "status": "proved",
   "theorems": [
    "Knp.Props.C14_subscribe_union",
    "Knp.Props.C14_subscribe_history",
    "Knp.Props.C14_sender_counts",
    "Knp.Props.C14_senders_nodup"
   ],
   "note": ""
  },
  {
   "property": "C140",
   "status": "proved",
   "theorems": [
    "Knp.Props.C140_dataflow",
    "Knp.Props.C140_no_exception",
    "Knp.Props.C140_defined",
    "Knp.Props.C140_bad_target"
   ],
   "note": "C140_bad_target: a synapse to a neuron that does not exist is undefined behaviour. Model/Cuda: kernels with arbitrary thread orders; device memory as lists; BLIFAT populations and delta projections (the only types the backend has)."
  },
  {
   "property": "C141",
   "status": "partial",
   "theorems": [
    "Knp.Props.C141_frozen_partial",
    "Knp.Props.C141_refuted"
   ],
   "note": "False: after the first step the subscriptions of the device never change. Model/Cuda: kernels with arbitrary thread orders; device memory as lists; BLIFAT populations and delta projections (the only types the backend has)."
  },
  {
   "property": "C142",
   "status": "partial",
   "theorems": [
    "Knp.Props.C142_never_selected_partial",
    "Knp.Props.C142_refuted"
   ],
   "note": "False: get_devices gives its devices new UIDs in each call, so no UID the program has can be selected (proved for all). Model/Cuda: kernels with arbitrary thread orders; device memory as lists; BLIFAT populations and delta projections (the only types the backend has)."
  },
  {
   "property": "C143",
   "status": "proved",
   "theorems": [
    "Knp.Props.C143_refractory"
   ],
   "note": "Model/Cuda: kernels with arbitrary thread orders; device memory as lists; BLIFAT populations and delta projections (the only types the backend has)."
  },
  {
   "property": "C144",
   "status": "partial",
   "theorems": [
    "Knp.Props.C144_vector_partial",
    "Knp.Props.C144_memory_partial",
    "Knp.Props.C144_device_growth",
    "Knp.Props.C144_third_push",
    "Knp.Props.C144_own_element",
    "Knp.Props.C144_extract_empty",
    "Knp.Props.C144_assign_list",
    "Knp.Props.C144_host_erase",
    "Knp.Props.C144_refuted"
   ],
   "note": "Proved for all histories of the calls that work (Works). False in general: push_back of an own element on the device; a push into an extracted empty vector; for element types that are not trivially copyable growth and copies on the device (the third push_back of a message is undefined, C144_third_push), assignment of a std::vector, erase on the host. Model/CudaVector: memory as blocks of cells, each constructed or not; using a freed block, an unconstructed element of a type that is not trivially copyable, or cells outside of a block is undefined behaviour."
  },
  {
   "property": "C145",
   "status": "partial",
   "theorems": [
    "Knp.Props.C145_equal_partial",
    "Knp.Props.C145_refuted"
   ],
   "note": "True on the device; on the host only sizes and first elements are compared (proved exactly). Model/CudaVector: memory as blocks of cells, each constructed or not; using a freed block, an unconstructed element of a type that is not trivially copyable, or cells outside of a block is undefined behaviour."
  },
  {
   "property": "C146",
   "status": "partial",
   "theorems": [
    "Knp.Props.C146_parts_partial",
    "Knp.Props.C146_outputs",
    "Knp.Props.C146_parts_refuted"
   ],
   "note": "Proved for every network whose projections all end in populations of it; a projection to anywhere else makes the call undefined behaviour (C146_outputs, for all such networks). Model/Visualizer; coordinates in an ordered field, a drawing is the list of things drawn."
  },
  {
   "property": "C147",
   "status": "partial",
   "theorems": [
    "Knp.Props.C147_exact",
    "Knp.Props.C147_springs_partial",
    "Knp.Props.C147_parts",
    "Knp.Props.C147_divided",
    "Knp.Props.C147_springs_refuted"
   ],
   "note": "Proved for sets no projection leads out of, in particular the parts of C146; otherwise a projection to a population outside joins its source to the first node (exact characterisation). Model/Visualizer; coordinates in an ordered field, a drawing is the list of things drawn."
  },
  {
   "property": "C148",
   "status": "partial",
   "theorems": [
    "Knp.Props.C148_inside",
    "Knp.Props.C148_fits_partial",
    "Knp.Props.C148_fits_refuted"
   ],
   "note": "Inside always. Not independent of position: the largest coordinate is searched starting from the least positive double (numeric_limits<double>::min()). C149 shows that position_network does not get there. Model/Visualizer; coordinates in an ordered field, a drawing is the list of things drawn."
  },
  {
   "property": "C149",
   "status": "proved",
   "theorems": [
    "Knp.Props.C149_centre",
    "Knp.Props.C149_positive",
    "Knp.Props.C149_network"
   ],
   "note": "Exact arithmetic; starts at least the least positive double. Model/Visualizer; coordinates in an ordered field, a drawing is the list of things drawn."
  },
  {
   "property": "C15",
   "status": "proved",
   "theorems": [
    "Knp.Props.C15_envelope_round_trip",
    "Knp.Props.C15_unknown_tag_throws",
    "Knp.Props.C15_envelope_injective"
   ],
   "note": "Flatbuffers modelled by its accessor contract."
  },
  {
   "property": "C150",
   "status": "partial",
   "theorems": [
    "Knp.Props.C150_picture_partial",
    "Knp.Props.C150_prefix",
    "Knp.Props.C150_picture_refuted"
   ],
   "note": "Lines and dots are right for every set; the names are those of the first populations of the network, so right only if the nodes are those. Model/Visualizer; coordinates in an ordered field, a drawing is the list of things drawn."
  },
  {
   "property": "C151",
   "status": "partial",
   "theorems": [
    "Knp.Props.C151_processors_partial",
    "Knp.Props.C151_processors_refuted",
    "Knp.Props.C151_names",
    "Knp.Props.C151_socket",
    "Knp.Props.C151_never_selected"
   ],
   "note": "One device per processor with its name: proved. False: moving a CPU object does not move its base class, so each call gives new UIDs (none the program has can be selected, C151_never_selected), and on x86 the socket number is never written (undefined behaviour to read). Model/Devices."
  },
  {
   "property": "C152",
   "status": "partial",
   "theorems": [
    "Knp.Props.C152_select_partial",
    "Knp.Props.C152_exact",
    "Knp.Props.C152_missing",
    "Knp.Props.C152_select_refuted"
   ],
   "note": "True for one UID and nothing selected before. Otherwise at most one device is added, and a missing one is not reported once as many devices are selected as asked for. Model/Devices."
  },
  {
   "property": "C153",
   "status": "partial",
   "theorems": [
    "Knp.Props.C153_named_partial",
    "Knp.Props.C153_unnamed_partial",
    "Knp.Props.C153_read",
    "Knp.Props.C153_shown",
    "Knp.Props.C153_names_refuted"
   ],
   "note": "All histories without direct writes are covered: last name set, UID if the tag was never read, exception if it was read before a name was set. Model/Names."
  },
  {
   "property": "C154",
   "status": "proved",
   "theorems": [
    "Knp.Props.C154_populations",
    "Knp.Props.C154_projections",
    "Knp.Props.C154_closed",
    "Knp.Props.C154_outputs"
   ],
   "note": "All histories of constructor calls; training may change anything but UIDs and connections. C154_outputs needs the output populations to be added as kept."
  },
  {
   "property": "C155",
   "status": "partial",
   "theorems": [
    "Knp.Props.C155_replaced_partial",
    "Knp.Props.C155_otherwise",
    "Knp.Props.C155_two_senders",
    "Knp.Props.C155_replaced_refuted"
   ],
   "note": "Proved exactly when it works: no projection is asked for twice. False for a group of two senders: the first removes the projection, the second throws (C155_two_senders)."
  },
  {
   "property": "C156",
   "status": "partial",
   "theorems": [
    "Knp.Props.C156_weights_partial",
    "Knp.Props.C156_thresholds_partial",
    "Knp.Props.C156_defined",
    "Knp.Props.C156_range_refuted"
   ],
   "note": "Weights: proved. Thresholds: proved without additional thresholds; false with a fractional one, which the maximum drops. Exact arithmetic: rounding of float and double is not modelled."
  },
  {
   "property": "C157",
   "status": "partial",
   "theorems": [
    "Knp.Props.C157_scaled_partial",
    "Knp.Props.C157_decision",
    "Knp.Props.C157_scaled_refuted"
   ],
   "note": "Proved for populations one projection ends in. False for two: the thresholds are scaled by both factors, the weights by one each. Exact arithmetic: rounding of float and double is not modelled."
  },
  {
   "property": "C158",
   "status": "partial",
   "theorems": [
    "Knp.Props.C158_inverse_partial",
    "Knp.Props.C158_inverse_refuted"
   ],
   "note": "Proved for limits in order; with the limits swapped, which the code accepts, the synapse gets another weight. Exact arithmetic: rounding of float and double is not modelled."
  },
  {
   "property": "C159",
   "status": "partial",
   "theorems": [
    "Knp.Props.C159_winners_partial",
    "Knp.Props.C159_first_message",
    "Knp.Props.C159_uids",
    "Knp.Props.C159_two_senders_refuted"
   ],
   "note": "Proved for pairs with one sender population; with several senders the handler looks at the first message of the step only (general law in C159_first_message), so the property is false: C159_two_senders_refuted."
  },
  {
   "property": "C16",
   "status": "partial",
   "theorems": [
    "Knp.Props.C16_text_round_trip_refuted",
    "Knp.Props.C16_impact_stale_refuted",
    "Knp.Props.C16_float_precision_refuted",
    "Knp.Props.C16_text_round_trip_partial",
    "Knp.Props.C16_stream_of_spikes"
   ],
   "note": "Fails when an empty message is read into a used object and for impact values with more than 6 significant digits."
  },
  {
   "property": "C160",
   "status": "partial",
   "theorems": [
    "Knp.Props.C160_schedules_partial",
    "Knp.Props.C160_refuted"
   ],
   "note": "Proved for every program whose handlers and observers do not look at the order inside a message, on networks without blocking impacts and with order-independent neurons (exact sums). False otherwise: a handler taking the first neuron of a message shows which thread was first."
  },
  {
   "property": "C161",
   "status": "partial",
   "theorems": [
    "Knp.Props.C161_backends_partial",
    "Knp.Props.C161_refuted"
   ],
   "note": "Proved under the conditions of C125 (at most one message per projection and step, no index twice, no blocking) for programs that do not look at the order inside messages. False in general: with two channels into one projection the multi-threaded backend uses the first message only."
  },
  {
   "property": "C162",
   "status": "proved",
   "theorems": [
    "Knp.Props.C162_valid_runs",
    "Knp.Props.C162_threads",
    "Knp.Props.C162_threads_progress",
    "Knp.Props.C162_program",
    "Knp.Props.C162_program_threads",
    "Knp.Props.C162_program_progress",
    "Knp.Props.C162_lif",
    "Knp.Props.C162_blifat",
    "Knp.Props.C162_altai",
    "Knp.Props.C162_resource",
    "Knp.Props.C162_conditions_needed",
    "Knp.Props.C162_copy"
   ],
   "note": "All runs on both CPU backends, with and without the executor around them. Sizes are at most 2^32 (indices in impacts have 32 bits) and the part size of the multi-threaded backend is at least 1; additive STDP is left out of the progress theorems because that backend cannot load it. Both conditions on synapses are needed (C162_conditions_needed).C162_copy: a part of the network taken out of the backend after any run is valid."
  },
  {
   "property": "C163",
   "status": "partial",
   "theorems": [
    "Knp.Props.C163_rounding",
    "Knp.Props.C163_weight_partial",
    "Knp.Props.C163_upper_partial",
    "Knp.Props.C163_refuted",
    "Knp.Props.C163_order_refuted"
   ],
   "note": "Lower bound always; upper bound when w_max - w_min is representable and the resource is at most 2^23 - 1 times it. False beyond that: witnesses exceed w_max by one unit in the last place; also w_max itself is reached and the weight can fall when the resource grows."
  },
  {
   "property": "C164",
   "status": "partial",
   "theorems": [
    "Knp.Props.C164_resume_partial",
    "Knp.Props.C164_refuted",
    "Knp.Props.C164_learning_refuted"
   ],
   "note": "Holds for networks without training when every spike has arrived (condition on the observed spikes and delays). False otherwise: waiting impacts are not part of the copy; and a learning network continues with other weights because neurons and synapses remember absolute steps."
  },
  {
   "property": "C165",
   "status": "partial",
   "theorems": [
    "Knp.Props.C165_spikes_log",
    "Knp.Props.C165_aggregated_partial",
    "Knp.Props.C165_refuted"
   ],
   "note": "The spikes log as stated. The aggregated log has a line every period steps, but its line with index s counts the steps s-period-1 .. s-2 (exactly characterised): the line is written before the messages of the step just made are added; witness refutes the stated window."
  },
  {
   "property": "C166",
   "status": "proved",
   "theorems": [
    "Knp.Props.C166_network",
    "Knp.Props.C166_learning",
    "Knp.Props.C166_connected",
    "Knp.Props.C166_valid",
    "Knp.Props.C166_generators",
    "Knp.Props.C166_training"
   ],
   "note": "BLIFAT variant, any sizes that fit (the repository's do). Training on the single-threaded backend. Random UIDs are modelled as new ones."
  },
  {
   "property": "C167",
   "status": "proved",
   "theorems": [
    "Knp.Props.C167_images",
    "Knp.Props.C167_labels",
    "Knp.Props.C167_winners",
    "Knp.Props.C167_reward"
   ],
   "note": "Images, labels and winners on both CPU backends; rewards on the single-threaded one."
  },
  {
   "property": "C168",
   "status": "proved",
   "theorems": [
    "Knp.Props.C168_restored",
    "Knp.Props.C168_inference",
    "Knp.Props.C168_images",
    "Knp.Props.C168_weights",
    "Knp.Props.C168_currents",
    "Knp.Props.C168_winners",
    "Knp.Props.C168_output",
    "Knp.Props.C168_returned",
    "Knp.Props.C168_predictions"
   ],
   "note": "end to end from any TrainRun of C167: what is kept, what is shown, weights unchanged, impacts on input and output neurons, returned spikes and predictions; std::sort is any sorted permutation; images, winners, returned spikes and predictions for every CPU backend, the rest for the single-threaded one"
  },
  {
   "property": "C169",
   "status": "proved",
   "theorems": [
    "Knp.Props.C169_raw_log",
    "Knp.Props.C169_console_log",
    "Knp.Props.C169_written",
    "Knp.Props.C169_written_training",
    "Knp.Props.C169_weights_log"
   ],
   "note": "the exact contents of the logs; the streams themselves are not modelled (a log is the list of records written), the header lines are left out; the weights log for the single-threaded backend"
  },
  {
   "property": "C17",
   "status": "partial",
   "theorems": [
    "Knp.Props.C17_impact_equality_refuted",
    "Knp.Props.C17_message_equality_refuted",
    "Knp.Props.C17_impact_equality_partial",
    "Knp.Props.C17_message_equality_partial",
    "Knp.Props.C17_spike_equality"
   ],
   "note": "synapse type not compared."
  },
  {
   "property": "C170",
   "status": "proved",
   "theorems": [
    "Knp.Props.C170_spikes",
    "Knp.Props.C170_rounds",
    "Knp.Props.C170_closed_form",
    "Knp.Props.C170_program",
    "Knp.Props.C170_example"
   ],
   "note": "single-threaded backend; the laws of arithmetic used are the hypotheses Counts, which exact arithmetic satisfies (SimpleEx.counts)"
  },
  {
   "property": "C171",
   "status": "partial",
   "theorems": [
    "Knp.Props.C171_images",
    "Knp.Props.C171_images_refuted",
    "Knp.Props.C171_images_none",
    "Knp.Props.C171_frames",
    "Knp.Props.C171_ten_levels",
    "Knp.Props.C171_levels_refuted",
    "Knp.Props.C171_generator",
    "Knp.Props.C171_file",
    "Knp.Props.C171_inputs",
    "Knp.Props.C171_outputs",
    "Knp.Props.C171_shown",
    "Knp.Props.C171_reported",
    "Knp.Props.C171_reported_partial",
    "Knp.Props.C171_program",
    "Knp.Props.C171_lost_refuted"
   ],
   "note": "False as stated in two places, both proved: whatever the file, one more image (black, or the truncated rest of the file) is read after the complete ones (C171_images_refuted), and of a step only the first message of an output population is reported, so with two output populations spikes are lost (C171_lost_refuted). Proved: everything else, for all files and networks; with one output population the report is complete (C171_reported_partial). For other numbers of levels than ten rounding can move a threshold (C171_levels_refuted, 364 levels)."
  },
  {
   "property": "C172",
   "status": "partial",
   "theorems": [
    "Knp.Props.C172_load",
    "Knp.Props.C172_distinct",
    "Knp.Props.C172_is_backend",
    "Knp.Props.C172_failed_load",
    "Knp.Props.C172_replaced_refuted"
   ],
   "note": "Proved for all histories with the exact rule: load uses the creator first found at the path, whatever the path leads to now. So after a library was replaced load does not use the new one although is_backend does (C172_replaced_refuted). Dynamic linking itself is not modelled."
  },
  {
   "property": "C173",
   "status": "proved",
   "theorems": [
    "Knp.Props.C173_training",
    "Knp.Props.C173_outcome",
    "Knp.Props.C173_local",
    "Knp.Props.C173_lawful"
   ],
   "note": "Exact arithmetic (any ordered field); the rule is Spec/StdpRule.lean. A neuron's index is assumed at most once in the spikes of a step, which the neuron step guarantees, and the synapse lookup is the one C01 proves."
  },
  {
   "property": "C174",
   "status": "proved",
   "theorems": [
    "Knp.Props.C174_blifat",
    "Knp.Props.C174_resource_blifat",
    "Knp.Props.C174_altai",
    "Knp.Props.C174_resource_altai",
    "Knp.Props.C174_order",
    "Knp.Props.C174_order_refuted",
    "Knp.Props.C174_exact"
   ],
   "note": "The formulas hold in any arithmetic (IEEE included), with the exact conditions under which the step is undefined or refused. Order independence needs the laws Sums, which exact arithmetic has (C174_exact); without the condition on blocking impacts it is false (C174_order_refuted)."
  },
  {
   "property": "C175",
   "status": "proved",
   "theorems": [
    "Knp.Props.C175_list",
    "Knp.Props.C175_new",
    "Knp.Props.C175_lock"
   ],
   "note": "What lookups return is C01 (which is refuted in general); everything else about a projection is here."
  },
  {
   "property": "C176",
   "status": "proved",
   "theorems": [
    "Knp.Props.C176_learning"
   ],
   "note": "Composes C111, C115 and C173. The rule is Spec/StdpRule.lean; the synapses after the step agree with it up to the recorded steps of their sources' last spikes (C112). Exact arithmetic in the training rule (any ordered field)."
  },
  {
   "property": "C177",
   "status": "proved",
   "theorems": [
    "Knp.Props.C177_synapse",
    "Knp.Props.C177_room",
    "Knp.Props.C177_stdp_only",
    "Knp.Props.C177_same_histories",
    "Knp.Props.C177_run"
   ],
   "note": "Exact arithmetic (any ordered field, exp uninterpreted); the lookup by target is the exact one of C01. That presynaptic spikes are recorded by the number of the target neuron is what the code does (C88_refuted)."
  },
  {
   "property": "C178",
   "status": "partial",
   "theorems": [
    "Knp.Props.C178_history",
    "Knp.Props.C178_power_partial",
    "Knp.Props.C178_short",
    "Knp.Props.C178_refuted"
   ],
   "note": "The interval and the energy are always those since the last successful reading (C178_history, every history). Refuted as stated: the time is truncated to whole seconds, so readings are infinite or NaN within a second and up to twice the average power otherwise; exact iff a whole number of seconds passed or no energy was consumed."
  },
  {
   "property": "C179",
   "status": "proved",
   "theorems": [
    "Knp.Props.C179_network",
    "Knp.Props.C179_learning",
    "Knp.Props.C179_inference",
    "Knp.Props.C179_prepares"
   ],
   "note": "Picture in Spec/MnistAltai.lean. C179_inference is about every training that keeps identities (UID, ends, type) and every preparation that succeeds; C179_prepares gives sufficient conditions for success. Composes C154-C158. Float rounding of the scale is not modelled."
  },
  {
   "property": "C18",
   "status": "proved",
   "theorems": [
    "Knp.Props.C18_sequential_uids_unique",
    "Knp.Props.C18_bound_is_sharp"
   ],
   "note": "The bound 2^64-1 is shown sharp."
  },
  {
   "property": "C180",
   "status": "partial",
   "theorems": [
    "Knp.Props.C180_altai_partial",
    "Knp.Props.C180_resource_partial",
    "Knp.Props.C180_needed",
    "Knp.Props.C180_refuted"
   ],
   "note": "Every history of any length runs without error when blocking values differ from the least 64-bit integer; the full statement is false: two blocking impacts of -2^63 make std::abs overflow (C180_refuted). Together with C162_altai this covers AltAI neurons with negative blocking weights, whose acceptance depends on the state."
  },
  {
   "property": "C181",
   "status": "proved",
   "theorems": [
    "Knp.Props.C181_runs",
    "Knp.Props.C181_program",
    "Knp.Props.C181_covers",
    "Knp.Props.C181_altai",
    "Knp.Props.C181_mnist_valid",
    "Knp.Props.C181_mnist",
    "Knp.Props.C181_threads",
    "Knp.Props.C181_program_threads",
    "Knp.Props.C181_program_progress"
   ],
   "note": "C162 with a state invariant; C181_covers shows that it generalises C162's networks, C181_mnist instantiates it with the AltAI MNIST example, which C162 does not cover.Multi-threaded backend: every order of the threads that names each task once, and such an order exists for networks without additive synapses. AltAI neurons cannot be loaded into the multi-threaded backend (SupportedNeurons), so the MNIST instance is about the single-threaded one."
  },
  {
   "property": "C19",
   "status": "proved",
   "theorems": [
    "Knp.Props.C19_uid_strict_total_order",
    "Knp.Props.C19_uid_order_is_reversed"
   ],
   "note": ""
  },
  {
   "property": "C20",
   "status": "partial",
   "theorems": [
    "Knp.Props.C20_write_read",
    "Knp.Props.C20_const_read_errors",
    "Knp.Props.C20_failed_read_refuted",
    "Knp.Props.C20_read_frame_partial",
    "Knp.Props.C20_last_write_wins"
   ],
   "note": "A failed non-const read creates the tag (refuted); all other parts proved."
  },
  {
   "property": "C21",
   "status": "partial",
   "theorems": [
    "Knp.Props.C21_unique_uids_refuted",
    "Knp.Props.C21_unique_projections_refuted",
    "Knp.Props.C21_unique_uids_partial",
    "Knp.Props.C21_typed_add"
   ],
   "note": "The unchecked variant overload (the one overload resolution picks without explicit template arguments) accepts duplicates; proved for checked additions and fresh UIDs."
  },
  {
   "property": "C22",
   "status": "proved",
   "theorems": [
    "Knp.Props.C22_population_lookup",
    "Knp.Props.C22_projection_lookup",
    "Knp.Props.C22_remove_population",
    "Knp.Props.C22_remove_projection",
    "Knp.Props.C22_remove_unique"
   ],
   "note": ""
  },
  {
   "property": "C23",
   "status": "proved",
   "theorems": [
    "Knp.Props.C23_connect_ok",
    "Knp.Props.C23_connect_missing"
   ],
   "note": "Synapse contents of the new projection: C65."
  },
  {
   "property": "C24",
   "status": "partial",
   "theorems": [
    "Knp.Props.C24_channels_valid_refuted",
    "Knp.Props.C24_channels_valid_partial",
    "Knp.Props.C24_registration"
   ],
   "note": "Removing the entity from the network afterwards leaves a dangling channel (refuted); holds for histories without removals."
  },
  {
   "property": "C25",
   "status": "partial",
   "theorems": [
    "Knp.Props.C25_channels_loaded_refuted",
    "Knp.Props.C25_channels_loaded_partial",
    "Knp.Props.C25_missing_generator",
    "Knp.Props.C25_unknown_channel"
   ],
   "note": "Hash bucket collisions of channel UIDs merge channels (refuted); proved for every hash without collisions among registered channels."
  },
  {
   "property": "C26",
   "status": "partial",
   "theorems": [
    "Knp.Props.C26_run_order",
    "Knp.Props.C26_inputs_once",
    "Knp.Props.C26_inputs_once_per_step_refuted"
   ],
   "note": "Exact order of all calls in a run is proved; across runs the step whose predicate was false is fed to the inputs again (refuted)."
  },
  {
   "property": "C27",
   "status": "proved",
   "theorems": [
    "Knp.Props.C27_steps_consecutive",
    "Knp.Props.C27_bounded_run",
    "Knp.Props.C27_bounded_run_pure",
    "Knp.Props.C27_unbounded_run",
    "Knp.Props.C27_pre_post"
   ],
   "note": "Stateful predicates included."
  },
  {
   "property": "C28",
   "status": "proved",
   "theorems": [
    "Knp.Props.C28_init_once"
   ],
   "note": "Any callbacks, exceptions and stops; excludes the direct public _init/_step calls."
  },
  {
   "property": "C29",
   "status": "partial",
   "theorems": [
    "Knp.Props.C29_not_running_refuted",
    "Knp.Props.C29_not_running_partial",
    "Knp.Props.C29_stop"
   ],
   "note": "running() stays true after a predicate ended the run (refuted)."
  },
  {
   "property": "C30",
   "status": "partial",
   "theorems": [
    "Knp.Props.C30_select_devices_refuted",
    "Knp.Props.C30_missing_device_refuted",
    "Knp.Props.C30_select_devices_partial",
    "Knp.Props.C30_select_device"
   ],
   "note": "Only one device is ever selected by select_devices."
  },
  {
   "property": "C31",
   "status": "partial",
   "theorems": [
    "Knp.Props.C31_read_window_refuted",
    "Knp.Props.C31_unsorted_ub",
    "Knp.Props.C31_large_steps_throw",
    "Knp.Props.C31_read_window_partial",
    "Knp.Props.C31_history_conservation",
    "Knp.Props.C31_consecutive_reads"
   ],
   "note": "Holds for step-sorted buffers, start<=final and start+final+1 <= vector::max_size(); refuted (UB / exception) outside."
  },
  {
   "property": "C32",
   "status": "proved",
   "theorems": [
    "Knp.Props.C32_bitwise",
    "Knp.Props.C32_count",
    "Knp.Props.C32_set"
   ],
   "note": ""
  },
  {
   "property": "C33",
   "status": "proved",
   "theorems": [
    "Knp.Props.C33_send",
    "Knp.Props.C33_send_history"
   ],
   "note": ""
  },
  {
   "property": "C34",
   "status": "proved",
   "theorems": [
    "Knp.Props.C34_index_line",
    "Knp.Props.C34_large_index_wraps",
    "Knp.Props.C34_empty_field_throws"
   ],
   "note": "Any non-digit delimiter, leading zeros; std::stoul modelled by its contract. Values above 2^32 wrap silently."
  },
  {
   "property": "C35",
   "status": "proved",
   "theorems": [
    "Knp.Props.C35_sequence",
    "Knp.Props.C35_short_stream_ub",
    "Knp.Props.C35_threshold",
    "Knp.Props.C35_threshold_incomparable"
   ],
   "note": "A stream that ends early is undefined behaviour; NaN passes thresholds."
  },
  {
   "property": "C36",
   "status": "proved",
   "theorems": [
    "Knp.Props.C36_kwta",
    "Knp.Props.C36_kwta_other_messages",
    "Knp.Props.C36_kwta_all_messages_refuted",
    "Knp.Props.C36_kwta_any_winner"
   ],
   "note": "For every draw. Only the first message is looked at: spikes in further messages of the same step are dropped (refuted reading kept)."
  },
  {
   "property": "C37",
   "status": "proved",
   "theorems": [
    "Knp.Props.C37_per_group"
   ],
   "note": "Side condition: borders*k does not exceed vector::max_size (reserve)."
  },
  {
   "property": "C38",
   "status": "partial",
   "theorems": [
    "Knp.Props.C38_group_wta_refuted",
    "Knp.Props.C38_group_wta_partial"
   ],
   "note": "Zero winners index spikes_per_group[-1]: undefined behaviour. Everything holds for k > 0."
  },
  {
   "property": "C39",
   "status": "proved",
   "theorems": [
    "Knp.Props.C39_union"
   ],
   "note": ""
  },
  {
   "property": "C40",
   "status": "partial",
   "theorems": [
    "Knp.Props.C40_populations",
    "Knp.Props.C40_projections_refuted",
    "Knp.Props.C40_projections_partial"
   ],
   "note": "Population half holds. Projections with a dangling or single missing end are not reported."
  },
  {
   "property": "C41",
   "status": "proved",
   "theorems": [
    "Knp.Props.C41_all_applied",
    "Knp.Props.C41_one_result_each",
    "Knp.Props.C41_registered"
   ],
   "note": "Stateful and throwing validators included."
  },
  {
   "property": "C42",
   "status": "proved",
   "theorems": [
    "Knp.Props.C42_delay_honoured",
    "Knp.Props.C42_changing_weights",
    "Knp.Props.C42_only_synapses",
    "Knp.Props.C42_threads",
    "Knp.Props.C42_threads_only"
   ],
   "note": "Side conditions: 32-bit neuron numbers, delay >= 1, due step below 2^64. Also while training changes the weights."
  },
  {
   "property": "C43",
   "status": "proved",
   "theorems": [
    "Knp.Props.C43_no_loss_no_duplication"
   ],
   "note": ""
  },
  {
   "property": "C44",
   "status": "partial",
   "theorems": [
    "Knp.Props.C44_zero_delay_refuted",
    "Knp.Props.C44_zero_delay_never"
   ],
   "note": "The property is false of the code: an impact with delay 0 is never delivered (proved for every run)."
  },
  {
   "property": "C45",
   "status": "partial",
   "theorems": [
    "Knp.Props.C45_two_messages_refuted",
    "Knp.Props.C45_agree_partial",
    "Knp.Props.C45_totals_partial",
    "Knp.Props.C45_step_partial",
    "Knp.Props.C45_order_step"
   ],
   "note": "The multi-threaded backend uses only one of several spike messages per step (refuted); agreement proved for at most one message per step under every schedule."
  },
  {
   "property": "C46",
   "status": "proved",
   "theorems": [
    "Knp.Props.C46_partition",
    "Knp.Props.C46_zero_part_diverges"
   ],
   "note": ""
  },
  {
   "property": "C47",
   "status": "proved",
   "theorems": [
    "Knp.Props.C47_schedule_independent",
    "Knp.Props.C47_progress"
   ],
   "note": "Small-step tasks, every interleaving at neuron granularity; tasks of other populations (other objects) left out."
  },
  {
   "property": "C48",
   "status": "partial",
   "theorems": [
    "Knp.Props.C48_single",
    "Knp.Props.C48_multi_swapped",
    "Knp.Props.C48_multi_refuted"
   ],
   "note": "Single-threaded holds; multi-threaded swaps the two population UIDs in every message (proved)."
  },
  {
   "property": "C49",
   "status": "proved",
   "theorems": [
    "Knp.Props.C49_refractory",
    "Knp.Props.C49_fires_again"
   ],
   "note": "Uninterpreted arithmetic."
  },
  {
   "property": "C50",
   "status": "proved",
   "theorems": [
    "Knp.Props.C50_threshold",
    "Knp.Props.C50_accepts"
   ],
   "note": "Uninterpreted arithmetic."
  },
  {
   "property": "C51",
   "status": "proved",
   "theorems": [
    "Knp.Props.C51_refractory",
    "Knp.Props.C51_refractory_resource"
   ],
   "note": "Wrapping step counter included."
  },
  {
   "property": "C52",
   "status": "proved",
   "theorems": [
    "Knp.Props.C52_minimum",
    "Knp.Props.C52_minimum_resource"
   ],
   "note": "Only law used: nothing is less than itself."
  },
  {
   "property": "C53",
   "status": "partial",
   "theorems": [
    "Knp.Props.C53_conductance_refuted",
    "Knp.Props.C53_blocked_partial",
    "Knp.Props.C53_active",
    "Knp.Props.C53_received",
    "Knp.Props.C53_zero_blocks_forever"
   ],
   "note": "Currents are ignored for exactly n steps; inhibitory conductance is not ignored (refuted); a block of 0 steps, and the end of an activity period, last for ever."
  },
  {
   "property": "C54",
   "status": "proved",
   "theorems": [
    "Knp.Props.C54_spike",
    "Knp.Props.C54_active",
    "Knp.Props.C54_block_length",
    "Knp.Props.C54_floor",
    "Knp.Props.C54_resource_same"
   ],
   "note": "Activity time as it stands at the end of the step, so -m silences m-1 steps."
  },
  {
   "property": "C55",
   "status": "proved",
   "theorems": [
    "Knp.Props.C55_each_neuron",
    "Knp.Props.C55_total"
   ],
   "note": "For every neuron type."
  },
  {
   "property": "C56",
   "status": "partial",
   "theorems": [
    "Knp.Props.C56_conserved_partial",
    "Knp.Props.C56_drain",
    "Knp.Props.C56_refuted",
    "Knp.Props.C56_history_partial",
    "Knp.Props.C56_population_step",
    "Knp.Props.C56_run_partial",
    "Knp.Props.C56_run_kinds",
    "Knp.Props.C56_threads_partial"
   ],
   "note": "Exact balance per training step (free + held changes only by what renormalisation drains / hands out); full conservation refuted by a witness, conserved part proved over histories. Exact arithmetic (no rounding). Also over whole runs of the backend with all its populations (C56_run_partial)."
  },
  {
   "property": "C57",
   "status": "proved",
   "theorems": [
    "Knp.Props.C57_bounds",
    "Knp.Props.C57_monotone",
    "Knp.Props.C57_training",
    "Knp.Props.C57_equal_bounds_refuted",
    "Knp.Props.C57_run",
    "Knp.Props.C57_threads"
   ],
   "note": "Needs w_min < w_max; with equal bounds the formula divides by zero (witness). Exact arithmetic."
  },
  {
   "property": "C58",
   "status": "partial",
   "theorems": [
    "Knp.Props.C58_locked_partial",
    "Knp.Props.C58_additive_refuted",
    "Knp.Props.C58_additive_ignores_lock",
    "Knp.Props.C58_run",
    "Knp.Props.C58_threads",
    "Knp.Props.C58_run_delta"
   ],
   "note": "Holds for resource STDP; additive STDP ignores the lock (refuted).Projections without training keep their synapses in a run."
  },
  {
   "property": "C59",
   "status": "partial",
   "theorems": [
    "Knp.Props.C59_never_continues",
    "Knp.Props.C59_refuted",
    "Knp.Props.C59_first_partial",
    "Knp.Props.C59_forced_partial",
    "Knp.Props.C59_loaded_restarts"
   ],
   "note": "False: the unsigned distance last_step - step wraps, so no spike ever continues a train (proved for every history)."
  },
  {
   "property": "C60",
   "status": "proved",
   "theorems": [
    "Knp.Props.C60_join",
    "Knp.Props.C60_at_most_once",
    "Knp.Props.C60_exception_leaves_tasks"
   ],
   "note": "Small-step model of the pool at the granularity of its critical sections, any number of workers, executors, joiners, spurious wake-ups, throwing tasks. A join left by a task's exception leaves tasks behind (witness)."
  },
  {
   "property": "C61",
   "status": "proved",
   "theorems": [
    "Knp.Props.C61_progress",
    "Knp.Props.C61_terminates",
    "Knp.Props.C61_joins_return"
   ],
   "note": "Proper use: one executor, or the documented lifetime rule. Tasks themselves terminate and do not call join."
  },
  {
   "property": "C62",
   "status": "proved",
   "theorems": [
    "Knp.Props.C62_worker_end",
    "Knp.Props.C62_stop_ends_workers",
    "Knp.Props.C62_two_executors_refuted",
    "Knp.Props.C62_post_after_stop_hangs"
   ],
   "note": "Proper use; without the lifetime rule false for two executors (witness); posting after stop hangs the destructor (witness)."
  },
  {
   "property": "C63",
   "status": "partial",
   "theorems": [
    "Knp.Props.C63_load_populations",
    "Knp.Props.C63_load_projections",
    "Knp.Props.C63_throw_leaves_prefix",
    "Knp.Props.C63_all_or_nothing_refuted",
    "Knp.Props.C63_single_names",
    "Knp.Props.C63_names_prefix_partial",
    "Knp.Props.C63_multi_names_refuted"
   ],
   "note": "Loading holds; a throwing load leaves a prefix behind (refuted all-or-nothing); the multi-threaded backend reports two wrong supported type names (refuted)."
  },
  {
   "property": "C64",
   "status": "partial",
   "theorems": [
    "Knp.Props.C64_remove_is_noop",
    "Knp.Props.C64_refuted"
   ],
   "note": "False: removal has an empty body in both backends."
  },
  {
   "property": "C65",
   "status": "proved",
   "theorems": [
    "Knp.Props.C65_all_to_all",
    "Knp.Props.C65_connect_populations"
   ],
   "note": "Sizes whose product fits size_t."
  },
  {
   "property": "C66",
   "status": "partial",
   "theorems": [
    "Knp.Props.C66_divisible_partial",
    "Knp.Props.C66_divisible_target_partial",
    "Knp.Props.C66_valid_iff",
    "Knp.Props.C66_refuted",
    "Knp.Props.C66_empty_side_ub"
   ],
   "note": "False when neither size divides the other (exact characterisation and witness); proved for divisible sizes."
  },
  {
   "property": "C67",
   "status": "proved",
   "theorems": [
    "Knp.Props.C67_exclusive"
   ],
   "note": "Sizes whose product fits size_t."
  },
  {
   "property": "C68",
   "status": "proved",
   "theorems": [
    "Knp.Props.C68_one_to_one",
    "Knp.Props.C68_from_container",
    "Knp.Props.C68_from_map",
    "Knp.Props.C68_clone",
    "Knp.Props.C68_index_based",
    "Knp.Props.C68_probability_refused",
    "Knp.Props.C68_fixed_probability",
    "Knp.Props.C68_fixed_post",
    "Knp.Props.C68_fixed_pre",
    "Knp.Props.C68_fixed_post_limits"
   ],
   "note": "Random draws are arbitrary sequences in the distribution's range. Limits (repeated targets, empty opposite population) shown by witnesses."
  },
  {
   "property": "C69",
   "status": "partial",
   "theorems": [
    "Knp.Props.C69_split_partial",
    "Knp.Props.C69_wrap_refuted",
    "Knp.Props.C69_truncation_refuted"
   ],
   "note": "False when the sum wraps or for 2^32 frames and more (witnesses); proved otherwise."
  },
  {
   "property": "C70",
   "status": "proved",
   "theorems": [
    "Knp.Props.C70_training",
    "Knp.Props.C70_inference",
    "Knp.Props.C70_periodic",
    "Knp.Props.C70_empty_part_ub"
   ],
   "note": "Datasets as the loader builds them; an empty part divides by zero (witness)."
  },
  {
   "property": "C71",
   "status": "proved",
   "theorems": [
    "Knp.Props.C71_shape",
    "Knp.Props.C71_too_many_active"
   ],
   "note": ""
  },
  {
   "property": "C72",
   "status": "proved",
   "theorems": [
    "Knp.Props.C72_counts",
    "Knp.Props.C97_predictions",
    "Knp.Props.C72_bad_label_ub"
   ],
   "note": "Time-ordered messages, labels that are classes; otherwise writes outside a vector (witness)."
  },
  {
   "property": "C73",
   "status": "partial",
   "theorems": [
    "Knp.Props.C73_rows",
    "Knp.Props.C73_recall_is_precision",
    "Knp.Props.C73_recall_partial",
    "Knp.Props.C73_refuted"
   ],
   "note": "False: the report passes false positives to recall."
  },
  {
   "property": "C74",
   "status": "partial",
   "theorems": [
    "Knp.Props.C74_json_partial",
    "Knp.Props.C74_h5_partial",
    "Knp.Props.C74_exact",
    "Knp.Props.C74_large_step_refuted",
    "Knp.Props.C74_large_index_ub",
    "Knp.Props.C74_time_unit_refuted",
    "Knp.Props.C74_time_unit_partial"
   ],
   "note": "Steps below 2^24, float/double rounding modelled exactly; false for larger steps and for time units that are not 1 (witnesses: with 0.01 step 15 loads as 14; off by at most one step up to 2^22)."
  },
  {
   "property": "C75",
   "status": "partial",
   "theorems": [
    "Knp.Props.C75_roundtrip_partial",
    "Knp.Props.C75_lost_field_refuted",
    "Knp.Props.C75_every_lost_field",
    "Knp.Props.C75_order_refuted",
    "Knp.Props.C75_empty_network_refuted",
    "Knp.Props.C75_additive_refuted",
    "Knp.Props.C75_empty_population_ub",
    "Knp.Props.C75_load_total",
    "Knp.Props.C75_savable_iff"
   ],
   "note": "False: listed members are lost, order becomes UID order, empty parts and additive STDP fail. Everything else survives for every network.C75_load_total, C75_savable_iff: exactly which files load and which networks can be saved and loaded again."
  },
  {
   "property": "C76",
   "status": "partial",
   "theorems": [
    "Knp.Props.C76_listed_partial",
    "Knp.Props.C76_refuted",
    "Knp.Props.C76_header_only_ub"
   ],
   "note": "False: types may be listed twice; at least once and at most twice proved for all sequences."
  },
  {
   "property": "C77",
   "status": "partial",
   "theorems": [
    "Knp.Props.C77_rows_partial",
    "Knp.Props.C77_conserved",
    "Knp.Props.C77_columns",
    "Knp.Props.C77_tail_refuted",
    "Knp.Props.C77_equal_names_refuted"
   ],
   "note": "Conservation between lines and accumulator proved for all runs; false at the end of a run (the rest stays in the accumulator) and the header is wrong for senders with equal names (witnesses)."
  },
  {
   "property": "C78",
   "status": "proved",
   "theorems": [
    "Knp.Props.C78_snapshot",
    "Knp.Props.C78_load_then_copy"
   ],
   "note": ""
  },
  {
   "property": "C79",
   "status": "proved",
   "theorems": [
    "Knp.Props.C79_affine",
    "Knp.Props.C79_order",
    "Knp.Props.C79_network_neurons",
    "Knp.Props.C79_network_synapses"
   ],
   "note": "Exact arithmetic; populations of a network share a parameter type in the model."
  },
  {
   "property": "C80",
   "status": "proved",
   "theorems": [
    "Knp.Props.C80_add_neurons",
    "Knp.Props.C80_construct",
    "Knp.Props.C80_get_set"
   ],
   "note": ""
  },
  {
   "property": "C81",
   "status": "partial",
   "theorems": [
    "Knp.Props.C81_send_time_refuted",
    "Knp.Props.C81_send_time_partial"
   ],
   "note": "The header carries the step of the first causing spike."
  },
  {
   "property": "C82",
   "status": "partial",
   "theorems": [
    "Knp.Props.C82_fresh_refuted",
    "Knp.Props.C82_fresh_refractory"
   ],
   "note": "False: a fresh neuron is refractory for refractory_period+1 steps (proved for every history)."
  },
  {
   "property": "C83",
   "status": "partial",
   "theorems": [
    "Knp.Props.C83_bursting_refuted",
    "Knp.Props.C83_period_one_partial",
    "Knp.Props.C83_long_period_never",
    "Knp.Props.C83_resource_repeats"
   ],
   "note": "Holds for period 1 of the plain neuron; never for longer periods; repeats for ever in the resource variant."
  },
  {
   "property": "C84",
   "status": "partial",
   "theorems": [
    "Knp.Props.C84_late_reward_partial",
    "Knp.Props.C84_early_reward_punishes"
   ],
   "note": "Holds for t >= ISI_max; for t < ISI_max every reward lowers the stability (unsigned wrap-around)."
  },
  {
   "property": "C85",
   "status": "partial",
   "theorems": [
    "Knp.Props.C85_causal_partial",
    "Knp.Props.C85_refuted",
    "Knp.Props.C85_never_depresses"
   ],
   "note": "False: additive STDP never depresses; causal pairs are right."
  },
  {
   "property": "C86",
   "status": "proved",
   "theorems": [
    "Knp.Props.C86_other_projections",
    "Knp.Props.C86_wiring",
    "Knp.Props.C86_unconnected"
   ],
   "note": ""
  },
  {
   "property": "C87",
   "status": "proved",
   "theorems": [
    "Knp.Props.C87_order_independent"
   ],
   "note": "Populations with different UIDs; each training is one atomic task."
  },
  {
   "property": "C88",
   "status": "partial",
   "theorems": [
    "Knp.Props.C88_refuted"
   ],
   "note": "False: the history of a synapse records spikes of the presynaptic neuron whose number is the synapse's target."
  },
  {
   "property": "C89",
   "status": "proved",
   "theorems": [
    "Knp.Props.C89_bounded_history",
    "Knp.Props.C89_run"
   ],
   "note": " Also over whole runs of the backend (C89_run)."
  },
  {
   "property": "C90",
   "status": "partial",
   "theorems": [
    "Knp.Props.C90_window_partial",
    "Knp.Props.C90_early_refuted",
    "Knp.Props.C90_marks",
    "Knp.Props.C90_exact"
   ],
   "note": "Holds from step = period on; before that step - period wraps and no earlier spike counts."
  },
  {
   "property": "C91",
   "status": "proved",
   "theorems": [
    "Knp.Props.C91_fifo"
   ],
   "note": ""
  },
  {
   "property": "C92",
   "status": "proved",
   "theorems": [
    "Knp.Props.C92_wiring"
   ],
   "note": ""
  },
  {
   "property": "C93",
   "status": "proved",
   "theorems": [
    "Knp.Props.C93_switch",
    "Knp.Props.C93_not_remembered"
   ],
   "note": "The switch is not remembered for projections loaded later (witness)."
  },
  {
   "property": "C94",
   "status": "proved",
   "theorems": [
    "Knp.Props.C94_population_creators"
   ],
   "note": "make_random not modelled."
  },
  {
   "property": "C95",
   "status": "partial",
   "theorems": [
    "Knp.Props.C95_load_partial",
    "Knp.Props.C95_refuted"
   ],
   "note": "False for streams of different length (witness)."
  },
  {
   "property": "C96",
   "status": "proved",
   "theorems": [
    "Knp.Props.C96_rate"
   ],
   "note": "Exact arithmetic (rounding of float ignored)."
  },
  {
   "property": "C97",
   "status": "partial",
   "theorems": [
    "Knp.Props.C97_predictions",
    "Knp.Props.C97_unordered_refuted"
   ],
   "note": "Needs messages in time order, as observers record them; otherwise false (witness)."
  },
  {
   "property": "C98",
   "status": "partial",
   "theorems": [
    "Knp.Props.C98_meaning_partial",
    "Knp.Props.C98_refuted",
    "Knp.Props.C98_total_votes"
   ],
   "note": "False: a wrong guess is counted as false positive of the true class, none at the guessed class."
  },
  {
   "property": "C99",
   "status": "proved",
   "theorems": [
    "Knp.Props.C99_ratios",
    "Knp.Props.C99_f_score"
   ],
   "note": "Exact arithmetic."
  }
 ]
}