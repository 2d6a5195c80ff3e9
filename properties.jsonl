{"id": "C01", "title": "Synapse lookup agrees with synapse contents", "statement": "After any sequence of public operations on a projection, find_synapses(n, by_presynaptic|by_postsynaptic) returns exactly the positions i (each once) for which projection[i] has source (target) neuron n.", "quantifier": "every synapse list, every history of generate/add/remove/clear/lookup/edit calls, every neuron n, both search criteria", "why_tests_cant": "Tests try a handful of call sequences; the claim is about every sequence of any length, and the interesting failures need a particular cache state at a particular call.", "anchors": ["knp/core-library/impl/projection.cpp: find_synapses, reindex, remove_postsynaptic_neuron_synapses", "knp/core-library/include/knp/core/projection.h: Projection"]}
{"id": "C02", "title": "Removing a target neuron's synapses removes exactly those", "statement": "remove_postsynaptic_neuron_synapses(n) deletes every synapse whose target is n, keeps all others in their original relative order, and returns the number deleted.", "quantifier": "every projection state reachable by any history (whatever the state of the lookup cache), every n", "why_tests_cant": "Deletion goes through a lazily rebuilt lookup structure and shifting vector positions; whether the right elements go depends on the cache state, list shape and multiplicities.", "anchors": ["knp/core-library/impl/projection.cpp: remove_postsynaptic_neuron_synapses, remove_by_index"]}
{"id": "C03", "title": "Predicate and source-neuron removal are exact filters", "statement": "remove_synapse_if(p) and remove_presynaptic_neuron_synapses(n) leave exactly the synapses not matching, in order, and return how many were removed; remove_synapse(i) drops exactly position i.", "quantifier": "every projection content, every predicate, every neuron, every valid position", "why_tests_cant": "The claim ranges over all contents and predicates.", "anchors": ["knp/core-library/impl/projection.cpp: remove_synapse_if, remove_presynaptic_neuron_synapses, remove_synapse"]}
{"id": "C04", "title": "Generated synapses are appended in generator order", "statement": "Constructing a projection from a generator, or calling add_synapses(generator, k), appends exactly the values produced for i = 0..k-1 that are present, in increasing i, leaves existing synapses untouched, and add_synapses returns how many were appended.", "quantifier": "every initial content, every generator (including ones that skip indices), every k", "why_tests_cant": "Ranges over all generator functions and counts.", "anchors": ["knp/core-library/impl/projection.cpp: Projection::Projection, add_synapses"]}
{"id": "C05", "title": "Removing neurons by index list", "statement": "Population::remove_neurons(ids) deletes exactly the neurons at the given positions and keeps the others in order.", "quantifier": "every population, every list of positions", "why_tests_cant": "Correctness depends on ordering and repetition in the index list; tests fix a few lists.", "anchors": ["knp/core-library/include/knp/core/population.h: remove_neurons, remove_neuron"]}
{"id": "C06", "title": "Spike and impact messages are delivered exactly once", "statement": "With the in-process message bus, when messages are sent, routed and received, each message appears exactly once in the inbox of every subscription (of its type) whose sender set contains the message's sender, on every live endpoint.", "quantifier": "every set of endpoints and subscriptions, every batch of sent messages, any interleaving of sends from the endpoints", "why_tests_cant": "Exactly-once delivery is a statement about all topologies and batches; a test fixes one topology.", "anchors": ["knp/core-library/impl/message_bus_cpu_impl/message_bus_cpu_impl.cpp: update, step", "knp/core-library/impl/message_endpoint.cpp: receive_message, receive_all_messages", "knp/core-library/impl/message_bus.cpp: route_messages"]}
{"id": "C07", "title": "No message reaches a receiver that did not subscribe to its sender", "statement": "A message never appears in the messages unloaded for a receiver unless that receiver had a live subscription of that message type to the message's sender when the message was received.", "quantifier": "every history of subscribe/unsubscribe/send/route/receive/unload calls over any number of endpoints", "why_tests_cant": "Tests try a handful of call sequences; the claim is about every sequence of any length, and the interesting failures need a particular cache state at a particular call.", "anchors": ["knp/core-library/impl/message_endpoint.cpp", "knp/core-library/include/knp/core/subscription.h: has_sender, add_message"]}
{"id": "C08", "title": "Arrival order follows send order", "statement": "For messages coming from one endpoint, a subscriber sees them in the order they were sent.", "quantifier": "every batch, any number of routing rounds between receives", "why_tests_cant": "Order depends on how many routing rounds happen between receives; tests look at one round.", "anchors": ["knp/core-library/impl/message_bus_cpu_impl/message_bus_cpu_impl.cpp: step, update", "knp/core-library/impl/message_bus_cpu_impl/message_endpoint_cpu_impl.h: receive_message"]}
{"id": "C09", "title": "Routing returns the number of messages and drains the bus", "statement": "route_messages() returns the number of messages that were sent since the last call through endpoints that still exist, and leaves nothing pending, so an immediately following call returns 0 and changes nothing.", "quantifier": "every set of endpoints and outboxes", "why_tests_cant": "Ranges over all queue contents; termination of the routing loop is part of the claim.", "anchors": ["knp/core-library/impl/message_bus.cpp: route_messages", "knp/core-library/impl/message_bus_cpu_impl/message_bus_cpu_impl.cpp"]}
{"id": "C10", "title": "Unsubscribing stops delivery", "statement": "After unsubscribe<T>(receiver) no message of type T received later is stored for that receiver, other receivers' subscriptions and stored messages are unaffected, and it reports whether a subscription existed.", "quantifier": "every endpoint state, every later history without re-subscribing", "why_tests_cant": "Tests try a handful of call sequences; the claim is about every sequence of any length, and the interesting failures need a particular cache state at a particular call.", "anchors": ["knp/core-library/include/knp/core/message_endpoint.h: unsubscribe", "knp/core-library/impl/message_endpoint.cpp"]}
{"id": "C11", "title": "The sender filter of an endpoint tracks its subscriptions", "statement": "An endpoint takes delivery from a sender exactly while at least one of its subscriptions lists that sender (so after the last such subscription is removed the endpoint stops accumulating that sender's messages).", "quantifier": "every history of subscribe/unsubscribe/remove_receiver", "why_tests_cant": "Tests try a handful of call sequences; the claim is about every sequence of any length, and the interesting failures need a particular cache state at a particular call.", "anchors": ["knp/core-library/impl/message_endpoint.cpp: update_senders, unsubscribe, subscribe"]}
{"id": "C12", "title": "Removing a receiver is safe and complete", "statement": "remove_receiver(r) removes all of r's subscriptions, leaves all others, and is defined behaviour for every endpoint state.", "quantifier": "every endpoint state and receiver", "why_tests_cant": "The defect only shows when the receiver has a subscription and depends on the allocator.", "anchors": ["knp/core-library/impl/message_endpoint.cpp: remove_receiver"]}
{"id": "C13", "title": "Unloading returns everything once and in order", "statement": "unload_messages<T>(r) returns all messages stored for (T, r) since the last unload, in arrival order, and empties only that store; a message is never returned twice nor lost between receive and unload.", "quantifier": "every endpoint history", "why_tests_cant": "Tests try a handful of call sequences; the claim is about every sequence of any length, and the interesting failures need a particular cache state at a particular call.", "anchors": ["knp/core-library/include/knp/core/message_endpoint.h: unload_messages", "knp/core-library/include/knp/core/subscription.h"]}
{"id": "C14", "title": "Subscriptions are idempotent unions", "statement": "subscribe<T>(r, S) makes r's sender set the union of what it was and S, whatever was subscribed before, in whatever order and multiplicity; stored messages survive; add/remove sender calls report exactly how many senders were added/removed.", "quantifier": "every endpoint state, receiver, sender list", "why_tests_cant": "Ranges over all subscription histories and sender lists.", "anchors": ["knp/core-library/impl/message_endpoint.cpp: subscribe", "knp/core-library/include/knp/core/subscription.h"]}
{"id": "C15", "title": "Envelope round trip", "statement": "extract_from_envelope(pack_to_envelope(m)) = m for every message of every kind, and a buffer with an unknown message tag is rejected with an exception.", "quantifier": "every spike message and every synaptic impact message (all sizes, all field values)", "why_tests_cant": "Round trip over an infinite value domain.", "anchors": ["knp/core-library/impl/messaging/message_envelope.cpp: pack_to_envelope, extract_from_envelope", "knp/core-library/impl/messaging/spike_message.cpp: pack, unpack", "knp/core-library/impl/messaging/synaptic_impact_message.cpp: pack, unpack"]}
{"id": "C16", "title": "Text stream round trip", "statement": "Writing a message with << and reading it back with >> gives the same message, whatever object it is read into.", "quantifier": "every spike/impact message, every previous content of the object that is read into", "why_tests_cant": "The failure depends on what the target object held before.", "anchors": ["knp/core-library/impl/messaging/spike_message.cpp", "knp/core-library/impl/messaging/synaptic_impact_message.cpp"]}
{"id": "C17", "title": "Impact equality means equal content", "statement": "Two synaptic impacts compare equal exactly when all their fields are equal.", "quantifier": "every pair of impacts", "why_tests_cant": "Ranges over all pairs.", "anchors": ["knp/core-library/include/knp/core/messaging/synaptic_impact_message.h: SynapticImpact::operator=="]}
{"id": "C18", "title": "Sequential UID generator never repeats", "statement": "The UIDs produced by the continuous generator are pairwise distinct and non-nil for the first 2^64-1 requests after a start, under every interleaving of requesting threads.", "quantifier": "every number of requests below the wrap-around, every thread schedule", "why_tests_cant": "2^64 requests and all schedules cannot be tested.", "anchors": ["knp/core-library/impl/uid.cpp: continuously_uid_generator", "knp/core-library/include/knp/core/uid.h"]}
{"id": "C19", "title": "UID ordering is a strict total order", "statement": "operator< on UIDs is irreflexive, transitive and total with respect to operator==, so UIDs can key ordered containers; != is the negation of ==.", "quantifier": "every pair/triple of UIDs", "why_tests_cant": "Ranges over 2^128 values.", "anchors": ["knp/core-library/include/knp/core/uid.h: operator<, operator==, operator!="]}
{"id": "C20", "title": "Tag map behaves as a map", "statement": "A tag read after a write returns the written value; writing one tag never changes another; a typed read of the wrong type or a read of a missing tag throws; a failed read does not change which tags exist.", "quantifier": "every history of tag reads and writes", "why_tests_cant": "Tests try a handful of call sequences; the claim is about every sequence of any length, and the interesting failures need a particular cache state at a particular call.", "anchors": ["knp/core-library/include/knp/core/tag.h: TagMap"]}
{"id": "C21", "title": "UIDs are unique inside a network", "statement": "After any sequence of add/remove/connect calls a network never contains two populations, or two projections, with the same UID: adding a duplicate throws and changes nothing.", "quantifier": "every history of network edits", "why_tests_cant": "Tests try a handful of call sequences; the claim is about every sequence of any length, and the interesting failures need a particular cache state at a particular call.", "anchors": ["knp/base-framework/impl/network.cpp", "knp/base-framework/include/knp/framework/network.h: add_population, add_projection"]}
{"id": "C22", "title": "Network lookup, membership and removal", "statement": "is_*_exists, get_* and remove_* agree: get returns the stored entity iff it exists and throws otherwise; remove deletes exactly one entity, keeps the order of the rest, and throws without change if it is absent; entities under other UIDs are untouched.", "quantifier": "every network, every UID", "why_tests_cant": "Ranges over all networks.", "anchors": ["knp/base-framework/impl/network.cpp: get_population, remove_population, get_projection, remove_projection"]}
{"id": "C23", "title": "connect_populations adds one valid projection", "statement": "connect_populations adds exactly one projection whose presynaptic/postsynaptic UIDs are the given populations and returns its UID; if either population is not in the network it throws and the network is unchanged.", "quantifier": "every network, pair of populations, generator", "why_tests_cant": "Ranges over all networks and generators.", "anchors": ["knp/base-framework/include/knp/framework/network.h: connect_populations"]}
{"id": "C24", "title": "Model channels always refer to existing entities", "statement": "Every input channel registered in a model refers to a projection of its network and every output channel to a population; registering one for a missing entity throws and changes nothing.", "quantifier": "every sequence of channel registrations", "why_tests_cant": "Tests try a handful of call sequences; the claim is about every sequence of any length, and the interesting failures need a particular cache state at a particular call.", "anchors": ["knp/base-framework/impl/model.cpp: add_input_channel, add_output_channel"]}
{"id": "C25", "title": "Loading a model creates every registered channel", "statement": "After a model is loaded, for every registered input/output channel UID a channel object with that UID exists, connected to exactly the entities registered for it, and get_input_channel/get_output_channel finds it; a missing input generator is reported by an exception.", "quantifier": "every set of channels, every distribution of UIDs over hash buckets", "why_tests_cant": "The failure depends on hash collisions of random UIDs.", "anchors": ["knp/base-framework/impl/model_loader.cpp: init_channels, gen_input_channel, gen_output_channel"]}
{"id": "C26", "title": "The executor feeds inputs and predicates in step order", "statement": "During a run every input channel is asked once per step, before that step is computed, with the step number about to be computed; output channels, handlers and observers run once per completed step, after it; the run stops at the first step whose predicate is false.", "quantifier": "every run predicate, number of channels and steps", "why_tests_cant": "Ranges over all predicates and run lengths.", "anchors": ["knp/base-framework/impl/model_executor.cpp: start, send_inputs, process_outputs"]}
{"id": "C27", "title": "A bounded run computes exactly the predicted number of steps", "statement": "start(predicate) performs steps exactly while the predicate holds for the current step, calling it with consecutive step numbers; the step counter increases by one per computed step.", "quantifier": "every predicate, every starting step", "why_tests_cant": "Ranges over all predicates and run lengths.", "anchors": ["knp/core-library/impl/backend.cpp: start, gad_step"]}
{"id": "C28", "title": "Initialisation happens once", "statement": "Across any sequence of start/stop/step-limited runs (with no uninit) the backend initialises exactly once, before the first step.", "quantifier": "every call sequence", "why_tests_cant": "Tests try a handful of call sequences; the claim is about every sequence of any length, and the interesting failures need a particular cache state at a particular call.", "anchors": ["knp/core-library/impl/backend.cpp: pre_start, start, stop"]}
{"id": "C29", "title": "A backend is not running after its run ended", "statement": "When any start() variant returns or throws, running() is false.", "quantifier": "every start variant, predicate, and point where a step throws", "why_tests_cant": "Needs all exit paths at all crash points.", "anchors": ["knp/core-library/impl/backend.cpp: start, running"]}
{"id": "C30", "title": "Selecting devices selects all requested devices", "statement": "select_devices(uids) makes exactly the available devices with the requested UIDs the selected ones, or throws if some UID is not available.", "quantifier": "every device list, every UID set", "why_tests_cant": "Ranges over all device lists.", "anchors": ["knp/core-library/impl/backend.cpp: select_devices, select_device"]}
{"id": "C31", "title": "Reading an output channel returns exactly the requested window once", "statement": "read_some_from_buffer(a, b) returns exactly the buffered messages with a <= step <= b in order and removes exactly those; consecutive disjoint reads partition the buffer.", "quantifier": "every buffer with non-decreasing steps, every a <= b", "why_tests_cant": "Ranges over all buffers and windows.", "anchors": ["knp/base-framework/impl/output_channel.cpp: read_some_from_buffer"]}
{"id": "C32", "title": "Output converters", "statement": "The bitwise converter marks exactly the neurons that spiked, the counting converter counts each neuron's spikes exactly, the set converter returns exactly the spiked indices below the size; indices outside the output are ignored.", "quantifier": "every message list and output size", "why_tests_cant": "Ranges over all message lists.", "anchors": ["knp/base-framework/include/knp/framework/io/out_converters/convert_bitwise.h", "knp/base-framework/include/knp/framework/io/out_converters/convert_count.h", "knp/base-framework/include/knp/framework/io/out_converters/convert_set.h"]}
{"id": "C33", "title": "Input channel sends a message exactly for non-empty data", "statement": "InputChannel.send(t) sends one message with its own UID, step t and the generated indices if the generator returns a non-empty list, otherwise it sends nothing and returns false.", "quantifier": "every generator and step", "why_tests_cant": "Ranges over all generators.", "anchors": ["knp/base-framework/include/knp/framework/io/input_channel.h: send"]}
{"id": "C34", "title": "Index list parsing", "statement": "Reading a line of decimal indices separated by the delimiter yields exactly those indices in order.", "quantifier": "every list of indices, every delimiter", "why_tests_cant": "Ranges over all lists and delimiters; substring arithmetic mistakes depend on positions.", "anchors": ["knp/base-framework/impl/input_converter.cpp: IndexConverter::operator()"]}
{"id": "C35", "title": "Sequence conversion", "statement": "Converting a sequence of n values yields exactly the ascending list of positions whose value passes the interpreter (for the threshold interpreter: value >= threshold), and consumes exactly n values from the stream.", "quantifier": "every value sequence, n, interpreter", "why_tests_cant": "Ranges over all sequences.", "anchors": ["knp/base-framework/include/knp/framework/io/in_converters/sequence_converter.h: SequenceConverter", "knp/base-framework/include/knp/framework/io/input_interpreters.h: interpret_with_threshold"]}
{"id": "C36", "title": "k-winners-take-all handler returns min(k, n) of the incoming spikes", "statement": "The random k-WTA handler returns a sub-multiset of the incoming message's spikes of size min(k, number of spikes), for every random draw.", "quantifier": "every message, k, random sequence", "why_tests_cant": "All random draws.", "anchors": ["knp/base-framework/impl/message_handlers.cpp: select_random_n, KWtaRandomHandler"]}
{"id": "C37", "title": "Per-group winner limit", "statement": "The per-group handler returns a sub-multiset of the incoming spikes containing exactly min(k, size) spikes of each group, where group g is the index interval delimited by the borders.", "quantifier": "every message, border list, k, random sequence", "why_tests_cant": "All random draws and border lists.", "anchors": ["knp/base-framework/impl/message_handlers.cpp: KWtaPerGroup"]}
{"id": "C38", "title": "Group WTA keeps the most active groups", "statement": "The group-WTA handler returns all spikes of exactly k groups, and no dropped group is larger than a kept one.", "quantifier": "every message, border list, k, random tie-breaking", "why_tests_cant": "All tie-breakings.", "anchors": ["knp/base-framework/impl/message_handlers.cpp: GroupWtaRandomHandler"]}
{"id": "C39", "title": "Spike union", "statement": "The union handler returns each neuron index that occurs in any of the messages exactly once and nothing else.", "quantifier": "every list of messages", "why_tests_cant": "Ranges over all message lists.", "anchors": ["knp/base-framework/impl/message_handlers.cpp: SpikeUnionHandler"]}
{"id": "C40", "title": "Connectivity validator is sound and complete", "statement": "The connectivity validator reports a population exactly if no projection is attached to it, and a projection exactly if one of its ends is not attached to a population of the network.", "quantifier": "every network", "why_tests_cant": "Ranges over all networks.", "anchors": ["knp/base-framework/impl/network_validation/validators/connectivity.cpp"]}
{"id": "C41", "title": "Every validator is run on every entity", "statement": "Running the validators applies each population validator to each population, each projection validator to each projection and each network validator once, and returns one result per application.", "quantifier": "every network and validator set", "why_tests_cant": "Ranges over all networks and validator sets.", "anchors": ["knp/base-framework/impl/network_validation/executor.cpp: run_validators"]}
{"id": "C42", "title": "Synaptic delay is honoured", "statement": "A spike of neuron n processed by a projection at step t causes, for every synapse with source n and delay d >= 1, one impact with that synapse's weight, type, source and target, delivered at step t+d-1 (d=1 means the same step), and at no other step.", "quantifier": "every synapse list, every spike history, every delay", "why_tests_cant": "The schedule of pending impacts depends on the whole spike history.", "anchors": ["knp/backends/cpu/cpu-library/include/knp/backends/cpu-library/impl/projections/delta/delta_impl.h"]}
{"id": "C43", "title": "No impact is lost or duplicated", "statement": "Over any run, the multiset of impacts sent by a projection by step t equals the multiset caused by all spikes with due step <= t (all pending ones are still queued).", "quantifier": "every spike history and run length", "why_tests_cant": "Whole-history statement.", "anchors": ["knp/backends/cpu/cpu-library/include/knp/backends/cpu-library/projections.h", "knp/backends/cpu/cpu-library/include/knp/backends/cpu-library/impl/projections/delta/delta_impl.h"]}
{"id": "C44", "title": "A zero delay is handled", "statement": "A synapse with delay 0 delivers its impact at some step (it is never silently swallowed).", "quantifier": "every step and spike", "why_tests_cant": "Needs the arithmetic corner at every step.", "anchors": ["knp/backends/cpu/cpu-library/include/knp/backends/cpu-library/impl/projections/delta/delta_impl.h"]}
{"id": "C45", "title": "Single- and multi-threaded projection computation agree", "statement": "For the same received spike messages the multi-threaded backend sends the same impacts as the single-threaded one, under every task schedule.", "quantifier": "every projection, message list, partition size and task interleaving", "why_tests_cant": "All schedules and part sizes.", "anchors": ["knp/backends/cpu/cpu-multi-threaded-backend/impl/backend.cpp", "knp/backends/cpu/cpu-library/include/knp/backends/cpu-library/impl/projections/delta/delta_impl.h"]}
{"id": "C46", "title": "Task partitioning covers every neuron exactly once", "statement": "Splitting a population (or spike list) into parts of the configured size processes every element exactly once.", "quantifier": "every size and every part size >= 1", "why_tests_cant": "All sizes.", "anchors": ["knp/backends/cpu/cpu-multi-threaded-backend/impl/backend.cpp"]}
{"id": "C47", "title": "Multi-threaded population step is schedule independent", "statement": "The set of spiking neurons and all resulting neuron states are the same for every order in which the partition tasks complete.", "quantifier": "every population, partition size and completion order", "why_tests_cant": "All schedules.", "anchors": ["knp/backends/cpu/cpu-multi-threaded-backend/impl/backend.cpp: calculate_populations"]}
{"id": "C48", "title": "Impact messages name their populations correctly", "statement": "Every impact message sent by a projection carries the projection's presynaptic population as presynaptic UID and its postsynaptic population as postsynaptic UID, on both backends.", "quantifier": "every projection and step", "why_tests_cant": "Ranges over all projections.", "anchors": ["knp/backends/cpu/cpu-library/include/knp/backends/cpu-library/impl/projections/delta/delta_impl.h"]}
{"id": "C49", "title": "LIF refractory period", "statement": "After a LIF neuron spikes it cannot spike during the next refract_period steps whatever input it receives, and can again at the step after.", "quantifier": "every parameter set, arithmetic, and input history", "why_tests_cant": "All input histories.", "anchors": ["knp/backends/cpu/cpu-library/include/knp/backends/cpu-library/impl/populations/lif/lif_impl.h"]}
{"id": "C50", "title": "LIF spikes exactly above threshold", "statement": "Outside the refractory period a LIF neuron spikes at a step exactly if its potential after leakage and input exceeds the threshold, and its potential then equals the reset value.", "quantifier": "every neuron state and input", "why_tests_cant": "All states.", "anchors": ["knp/backends/cpu/cpu-library/include/knp/backends/cpu-library/impl/populations/lif/lif_impl.h"]}
{"id": "C51", "title": "BLIFAT refractory period", "statement": "A BLIFAT neuron never spikes twice within absolute_refractory_period steps.", "quantifier": "every state and input history", "why_tests_cant": "All histories; the step counter wraps.", "anchors": ["knp/backends/cpu/cpu-library/include/knp/backends/cpu-library/impl/populations/blifat/blifat_impl.h"]}
{"id": "C52", "title": "BLIFAT potential never falls below its minimum", "statement": "After every completed step the potential of a BLIFAT neuron is not less than its min_potential.", "quantifier": "every state and input", "why_tests_cant": "All states, including NaN-free arithmetic corner cases.", "anchors": ["knp/backends/cpu/cpu-library/include/knp/backends/cpu-library/impl/populations/blifat/blifat_impl.h"]}
{"id": "C53", "title": "Blocking periods expire", "statement": "A BLIFAT neuron blocked for n steps ignores its input for exactly n steps and then works normally; an activity period of n steps lasts exactly n steps.", "quantifier": "every n and input history", "why_tests_cant": "All histories and the 0 corner case.", "anchors": ["knp/backends/cpu/cpu-library/include/knp/backends/cpu-library/impl/populations/blifat/blifat_impl.h"]}
{"id": "C54", "title": "AltAI activation", "statement": "An AltAI-LIF neuron spikes exactly if its potential after leak reaches activation plus additional threshold while its activity time is positive; in saturating mode its potential never falls below the negative threshold.", "quantifier": "every state and input", "why_tests_cant": "All states and mode flag combinations.", "anchors": ["knp/backends/cpu/cpu-library/include/knp/backends/cpu-library/impl/populations/altai/altai_impl.h"]}
{"id": "C55", "title": "Whole-population step is the per-neuron step", "statement": "One population step transforms every neuron independently: its new state and spike depend only on its own state and the impacts addressed to it, in order; the spike message lists exactly the spiking indices ascending; no message is sent if none spike.", "quantifier": "every population and impact message list", "why_tests_cant": "All populations and inputs.", "anchors": ["knp/backends/cpu/cpu-library/include/knp/backends/cpu-library/populations.h"]}
{"id": "C56", "title": "Synaptic resource is conserved", "statement": "The resource-STDP rule only moves resource between a neuron's free pool and its synapses: their sum is unchanged by spikes, dopamine and renormalisation (with zero drain).", "quantifier": "every neuron, synapse list, spike history", "why_tests_cant": "All histories.", "anchors": ["knp/backends/cpu/cpu-library/include/knp/backends/cpu-library/impl/populations/training/stdp.h", "knp/backends/cpu/cpu-library/include/knp/backends/cpu-library/impl/populations/blifat/blifat_stdp.h"]}
{"id": "C57", "title": "Synaptic weights stay within bounds", "statement": "After every weight recalculation a synapse's weight lies in [w_min, w_max), and is monotone in its resource.", "quantifier": "every resource value and bounds w_min < w_max", "why_tests_cant": "All real values.", "anchors": ["knp/backends/cpu/cpu-library/include/knp/backends/cpu-library/impl/populations/training/stdp.h: recalculate_synapse_weights"]}
{"id": "C58", "title": "Locked projections are not trained", "statement": "While a projection's weights are locked no training step changes its weights, for every synapse type.", "quantifier": "every run", "why_tests_cant": "All histories.", "anchors": ["knp/backends/cpu/cpu-library/include/knp/backends/cpu-library/impl/populations/training/stdp.h", "knp/backends/cpu/cpu-library/include/knp/backends/cpu-library/impl/projections/training/stdp/additive_stdp.h", "knp/core-library/include/knp/core/projection.h: lock_weights"]}
{"id": "C59", "title": "ISI state machine", "statement": "Spikes closer than isi_max to the previous one continue the current spike train; otherwise a new train starts.", "quantifier": "every spike history", "why_tests_cant": "Unsigned wrap-around depends on values.", "anchors": ["knp/backends/cpu/cpu-library/include/knp/backends/cpu-library/impl/populations/training/stdp.h: update_isi"]}
{"id": "C60", "title": "join() waits for all posted tasks", "statement": "When thread_pool::join returns every task posted before it has been executed, each exactly once, under every schedule of workers.", "quantifier": "every number of workers, tasks and every interleaving", "why_tests_cant": "All interleavings.", "anchors": ["knp/backends/cpu/thread_pool/impl/thread_pool_context.cpp", "knp/backends/cpu/thread_pool/include/knp/backends/thread_pool/thread_pool_executor.h"]}
{"id": "C61", "title": "The pool does not deadlock", "statement": "In every reachable state with unfinished tasks some thread can make progress.", "quantifier": "every interleaving", "why_tests_cant": "All interleavings.", "anchors": ["knp/backends/cpu/thread_pool/impl/thread_pool_context.cpp", "knp/backends/cpu/thread_pool/include/knp/backends/thread_pool/thread_pool_executor.h"]}
{"id": "C62", "title": "stop() executes what was posted", "statement": "After stop, workers terminate only once all posted tasks have been executed.", "quantifier": "every interleaving", "why_tests_cant": "All interleavings.", "anchors": ["knp/backends/cpu/thread_pool/impl/thread_pool_context.cpp", "knp/backends/cpu/thread_pool/include/knp/backends/thread_pool/thread_pool_executor.h"]}
{"id": "C63", "title": "Loading a network into a backend is all-or-nothing over supported types", "statement": "Loading populations/projections makes the backend's collection equal to the loaded list in order if all types are supported, and throws otherwise; supported-type lists name exactly the supported types.", "quantifier": "every list of variants", "why_tests_cant": "All lists.", "anchors": ["knp/backends/cpu/cpu-single-threaded-backend/impl/backend.cpp: load_populations, load_projections", "knp/meta-library/include/knp/meta/variant_helpers.h"]}
{"id": "C64", "title": "Removing entities from a backend", "statement": "remove_populations/remove_projections(uids) removes exactly those entities from the backend.", "quantifier": "every uid list", "why_tests_cant": "All lists.", "anchors": ["knp/backends/cpu/cpu-single-threaded-backend/impl/backend.cpp"]}
{"id": "C65", "title": "all_to_all connects every pair exactly once", "statement": "all_to_all(n, m) yields exactly the n*m distinct pairs (i, j), i < n, j < m.", "quantifier": "every n, m", "why_tests_cant": "All sizes.", "anchors": ["knp/base-framework/include/knp/framework/projection/synapse_generators.h: all_to_all"]}
{"id": "C66", "title": "aligned generator stays inside the populations", "statement": "aligned(n, m) yields max(n, m) synapses, all with source < n and target < m, using every neuron of both sides.", "quantifier": "every n, m >= 1", "why_tests_cant": "Depends on divisibility; tests use divisible sizes.", "anchors": ["knp/base-framework/include/knp/framework/projection/synapse_generators.h: aligned"]}
{"id": "C67", "title": "exclusive generator connects every pair of different neurons once", "statement": "exclusive(n) yields exactly the n*(n-1) pairs (i, j) with i != j, i, j < n.", "quantifier": "every n", "why_tests_cant": "All sizes.", "anchors": ["knp/base-framework/include/knp/framework/projection/synapse_generators.h: exclusive"]}
{"id": "C68", "title": "one_to_one, clone, index-based, container and fixed-number generators", "statement": "one_to_one(n) yields (i,i) for i<n; clone keeps endpoints; index_based yields exactly the pairs the function accepts; fixed_number_post/pre give each source/target neuron exactly k synapses with valid opposite ends, for every random draw.", "quantifier": "every size, k, random sequence", "why_tests_cant": "All sizes and draws.", "anchors": ["knp/base-framework/include/knp/framework/projection/synapse_generators.h"]}
{"id": "C69", "title": "Dataset split", "statement": "split(a, b) with a+b <= size makes the training part the first a frames and the inference part the next b frames (disjoint); otherwise it throws and nothing changes.", "quantifier": "every dataset and a, b", "why_tests_cant": "All sizes incl. arithmetic wrap.", "anchors": ["knp/base-framework/impl/data_processing/classification/dataset.cpp: split"]}
{"id": "C70", "title": "Image spike generators replay the frames", "statement": "The training/inference generators at step t return the ascending list of active pixels of sub-step t mod steps_per_frame of frame (t / steps_per_frame) mod part size; they are periodic.", "quantifier": "every dataset, t", "why_tests_cant": "All steps.", "anchors": ["knp/base-framework/impl/data_processing/classification/image.cpp"]}
{"id": "C71", "title": "Rate coding frame shape", "statement": "The incrementing converter yields exactly steps_per_frame*image_size flags, none active after the active steps.", "quantifier": "every image sequence", "why_tests_cant": "All images.", "anchors": ["knp/base-framework/impl/data_processing/classification/image.cpp: make_incrementing_image_to_spikes_converter"]}
{"id": "C72", "title": "Classification evaluation totals", "statement": "The predicted class of each frame is the first class with the maximal number of votes; each inference frame is counted exactly once as true positive, false negative or false positive of its label, and the four counters of every class sum to the number of frames.", "quantifier": "every spike record and dataset", "why_tests_cant": "All records.", "anchors": ["knp/base-framework/impl/inference_evaluation/classification/processor.cpp"]}
{"id": "C73", "title": "Recall is computed from false negatives", "statement": "The recall column of the report equals true_positives/(true_positives+false_negatives).", "quantifier": "every result", "why_tests_cant": "All counter values.", "anchors": ["knp/base-framework/impl/inference_evaluation/classification/processor.cpp: write_inference_results_to_stream_as_csv"]}
{"id": "C74", "title": "Saved spikes can be loaded back", "statement": "Saving spike messages to a JSON/HDF5 data file and loading them back yields, per step, exactly the same spikes in the same order, steps ascending.", "quantifier": "every message list", "why_tests_cant": "All message lists; float rounding of steps.", "anchors": ["knp/base-framework/impl/storage/native/data_storage_json.cpp", "knp/base-framework/impl/storage/native/data_storage_hdf5.cpp", "knp/base-framework/impl/storage/native/data_storage_common.cpp"]}
{"id": "C75", "title": "Saved networks can be loaded back", "statement": "Saving a network and loading it back yields the same populations and projections with all parameters and state.", "quantifier": "every network of supported types", "why_tests_cant": "All networks; one forgotten field is enough.", "anchors": ["knp/base-framework/impl/sonata/save_network.cpp", "knp/base-framework/impl/sonata/load_network.cpp", "knp/base-framework/impl/sonata/types"]}
{"id": "C76", "title": "Type tables list each type once", "statement": "The type CSV written by saving a network lists each neuron/synapse type exactly once.", "quantifier": "every sequence of types added", "why_tests_cant": "All sequences.", "anchors": ["knp/base-framework/impl/sonata/types/type_id_defines.h"]}
{"id": "C77", "title": "Aggregated spike log conserves spikes", "statement": "Each spike observed from a registered sender is counted in exactly one log row, in the column of its sender.", "quantifier": "every run and period", "why_tests_cant": "All runs.", "anchors": ["knp/base-framework/impl/monitoring/model.cpp"]}
{"id": "C78", "title": "Network snapshot equals the loaded network", "statement": "The synchronisation snapshot of a backend contains exactly the backend's populations and projections in order.", "quantifier": "every backend content", "why_tests_cant": "All contents.", "anchors": ["knp/base-framework/impl/synchronization.cpp"]}
{"id": "C79", "title": "Rescaling normaliser", "statement": "The rescaler maps the input interval affinely onto the output interval: ends to ends, preserving order, inside to inside; normalising a network changes only the selected parameter of each entity.", "quantifier": "every interval pair and value, every network", "why_tests_cant": "All real values.", "anchors": ["knp/base-framework/include/knp/framework/normalization/normalizers.h"]}
{"id": "C80", "title": "Population content operations", "statement": "Constructing a population from a generator, or add_neurons(generator, k), appends exactly the neurons the generator yields for i = 0..k-1 that are present, in order, leaving the existing neurons unchanged; get_neuron_parameters/set_neuron_parameters read and replace exactly one neuron.", "quantifier": "every population, generator and count", "why_tests_cant": "All generators and counts.", "anchors": ["knp/core-library/impl/population.cpp: Population"]}
{"id": "C81", "title": "Impact messages carry the step they are delivered", "statement": "The send time in the header of an impact message equals the step in which the projection sends it.", "quantifier": "every projection, history and delay", "why_tests_cant": "Any delay and history: a test sees single delays.", "anchors": ["knp/backends/cpu/cpu-library/include/knp/backends/cpu-library/impl/projections/delta/delta_impl.h: calculate_projection_impl"]}
{"id": "C82", "title": "A fresh BLIFAT neuron is ready", "statement": "A BLIFAT neuron that has never fired and has no refractory period spikes in its first step if its input reaches the threshold.", "quantifier": "every neuron with the default firing counter, every input", "why_tests_cant": "All states; depends on the wrap-around of the counter's default value.", "anchors": ["knp/neuron-traits-library/include/knp/neuron-traits/blifat.h: default_values", "knp/backends/cpu/cpu-library/include/knp/backends/cpu-library/impl/populations/blifat/blifat_impl.h"]}
{"id": "C83", "title": "BLIFAT bursting", "statement": "With bursting period p >= 1 the reflexive weight is added to the potential exactly once, in the p-th step after a spike.", "quantifier": "every period and input history, both BLIFAT variants", "why_tests_cant": "All periods and histories.", "anchors": ["knp/backends/cpu/cpu-library/include/knp/backends/cpu-library/impl/populations/blifat/blifat_impl.h: calculate_pre_impact_single_neuron_state_impl"]}
{"id": "C84", "title": "Reward changes stability as documented", "statement": "A positive dopamine value D at an unforced neuron t steps after the first spike of its train changes the neuron's stability by r*D*max(2-|t-ISI_max|/ISI_max, -1).", "quantifier": "every neuron state, reward, step", "why_tests_cant": "All step distances: depends on unsigned wrap-around for t < ISI_max.", "anchors": ["knp/backends/cpu/cpu-library/include/knp/backends/cpu-library/impl/populations/blifat/blifat_stdp.h"]}
{"id": "C85", "title": "Additive STDP weighs signed spike distances", "statement": "Each (presynaptic, postsynaptic) spike pair of a synapse's history contributes W(t_post - t_pre) to its weight: potentiation if the post spike is later, depression otherwise.", "quantifier": "every pair of spike histories", "why_tests_cant": "All orders of spikes.", "anchors": ["knp/backends/cpu/cpu-library/include/knp/backends/cpu-library/impl/projections/training/stdp/additive_stdp.h"]}
{"id": "C86", "title": "Training touches only what it trains", "statement": "A training step of a population changes only synapses of trainable projections ending in that population, and in each synapse only weight, resource and marks; source, target, delay, type, bounds stay the same; neurons and synapses of neurons without trainable synapses keep their rule except for their own ISI state.", "quantifier": "every state, spike set and step", "why_tests_cant": "All networks.", "anchors": ["knp/backends/cpu/cpu-library/include/knp/backends/cpu-library/impl/populations/training/stdp.h"]}
{"id": "C87", "title": "Training order of populations does not matter", "statement": "Training the populations in any order (any thread schedule that runs each population's training once) gives the same backend state.", "quantifier": "every permutation of populations, every network", "why_tests_cant": "All schedules.", "anchors": ["knp/backends/cpu/cpu-library/include/knp/backends/cpu-library/impl/populations/training/stdp.h"]}
{"id": "C88", "title": "Presynaptic history records the source's spikes", "statement": "In additive STDP the presynaptic spike history of a synapse records exactly the spikes of its source neuron.", "quantifier": "every projection and message", "why_tests_cant": "All wirings.", "anchors": ["knp/backends/cpu/cpu-library/include/knp/backends/cpu-library/impl/projections/training/stdp/additive_stdp.h"]}
{"id": "C89", "title": "Spike histories stay bounded", "statement": "The spike histories of additive-STDP synapses never grow beyond tau_plus + tau_minus (rounded up).", "quantifier": "every run", "why_tests_cant": "Runs of any length.", "anchors": ["knp/backends/cpu/cpu-library/include/knp/backends/cpu-library/impl/projections/training/stdp/additive_stdp.h"]}
{"id": "C90", "title": "Contribution window", "statement": "When a neuron fires, a synapse is marked as contributing iff its last spike arrived within the last dopamine_plasticity_period steps.", "quantifier": "every synapse, step and period", "why_tests_cant": "All steps: the first steps of a run wrap around.", "anchors": ["knp/backends/cpu/cpu-library/include/knp/backends/cpu-library/impl/populations/training/stdp.h"]}
{"id": "C91", "title": "Tasks start in posting order", "statement": "Tasks posted to the thread pool are started in the order in which they were posted.", "quantifier": "every history of posts, joins, stops, every schedule", "why_tests_cant": "All schedules.", "anchors": ["knp/backends/cpu/thread_pool/impl/thread_pool_context.cpp: execute_next, post"]}
{"id": "C92", "title": "Initialisation wires the network", "statement": "Initialising a CPU backend adds exactly these subscriptions: each projection hears the spikes of its presynaptic population and, if its synapses are trained, of its training populations; each population hears the impacts of each projection that ends in it; no receiver hears anybody else.", "quantifier": "every list of projections (missing ends, duplicates, several training populations) and every earlier subscription state", "why_tests_cant": "All networks.", "anchors": ["knp/backends/cpu/cpu-library/include/knp/backends/cpu-library/init.h: init, subscribe_stdp_projection", "knp/backends/cpu/cpu-single-threaded-backend/impl/backend.cpp: _init"]}
{"id": "C93", "title": "Learning switch", "statement": "stop_learning locks and start_learning unlocks the weights of every projection in the backend, and changes nothing else.", "quantifier": "every backend content and history of calls", "why_tests_cant": "All histories.", "anchors": ["knp/backends/cpu/cpu-single-threaded-backend/include/knp/backends/cpu-single-threaded/backend.h: stop_learning, start_learning"]}
{"id": "C94", "title": "Population creators", "statement": "from_container makes a population with exactly the given neurons in order; make_default(n) and make_clone(n, x) make n neurons equal to the default / to x.", "quantifier": "every container, count and neuron", "why_tests_cant": "All sizes.", "anchors": ["knp/base-framework/include/knp/framework/population/creators.h", "knp/base-framework/include/knp/framework/population/neuron_parameters_generators.h"]}
{"id": "C95", "title": "Loading images and labels", "statement": "Loading pairs the i-th image with the i-th label, in file order, up to the requested maximum.", "quantifier": "every image stream, label stream and maximum", "why_tests_cant": "All streams, including ones of different length.", "anchors": ["knp/base-framework/impl/data_processing/classification/image.cpp: process_labels_and_images"]}
{"id": "C96", "title": "Rate coding conserves intensity", "statement": "In the incrementing image-to-spikes converter the number of spikes of a pixel over the frame equals the whole part of the total increments it received, and each frame has exactly steps x pixels flags.", "quantifier": "every image, number of steps and state", "why_tests_cant": "All images and numbers of steps.", "anchors": ["knp/base-framework/impl/data_processing/classification/image.cpp: make_incrementing_image_to_spikes_converter"]}
{"id": "C97", "title": "Every inference frame gets one prediction from its own spikes", "statement": "The evaluation produces exactly one prediction per inference frame, made from exactly the spikes sent during that frame: the first class with the most spikes.", "quantifier": "every dataset and recorded message list", "why_tests_cant": "All message histories, including frames without spikes.", "anchors": ["knp/base-framework/impl/inference_evaluation/classification/processor.cpp"]}
{"id": "C98", "title": "Confusion counters have their documented meaning", "statement": "For each class, true positives / false negatives / false positives / true negatives count the frames as documented: predicted and present, not predicted though present, predicted though absent, neither.", "quantifier": "every dataset and message history", "why_tests_cant": "All outcomes.", "anchors": ["knp/base-framework/include/knp/framework/inference_evaluation/classification/result.h", "knp/base-framework/impl/inference_evaluation/classification/processor.cpp"]}
{"id": "C99", "title": "Classification metrics", "statement": "Precision, recall, prevalence and accuracy are the textbook ratios, always in [0,1], 0 for an empty denominator; the F-score is the harmonic mean.", "quantifier": "every counter combination", "why_tests_cant": "All values.", "anchors": ["knp/base-framework/impl/inference_evaluation/perfomance_metrics.cpp"]}
{"id": "C100", "title": "Spike log is complete", "statement": "The spikes logger writes one record per message of the named senders, in order, with the message's step, the sender's name and all spike numbers.", "quantifier": "every message history and name table", "why_tests_cant": "All histories.", "anchors": ["knp/base-framework/impl/monitoring/model.cpp: make_spikes_observer_function"]}
{"id": "C101", "title": "Status log follows its period", "statement": "The status logger writes the number of spike messages at each logging interval.", "quantifier": "every period and history", "why_tests_cant": "All histories and periods.", "anchors": ["knp/base-framework/impl/monitoring/model.cpp: add_status_logger", "knp/base-framework/include/knp/framework/monitoring/model.h"]}
{"id": "C102", "title": "Weight log lists every synapse once", "statement": "The weights logger writes, at steps divisible by the period, the weight of every synapse of the projection exactly once, under its receiving neuron, neurons and senders ascending.", "quantifier": "every projection, step and period", "why_tests_cant": "All projections, including several synapses between the same neurons.", "anchors": ["knp/base-framework/impl/monitoring/model.cpp: make_projection_weights_observer_function, process_projection_weights"]}
{"id": "C103", "title": "Strict loading refuses foreign files", "statement": "With strict format checking, loading a spike data file that lacks the format's magic number or has another version is refused with an exception, and so is one whose step and neuron lists differ in length.", "quantifier": "every file content", "why_tests_cant": "All files.", "anchors": ["knp/base-framework/impl/storage/native/data_storage_json.cpp: is_json_has_magic, is_correct_version", "knp/base-framework/impl/storage/native/data_storage_hdf5.cpp: check_magic, check_version"]}
{"id": "C104", "title": "A running network is a dataflow", "statement": "On the single-threaded backend every population receives, in each step, exactly the impact messages sent in the step before by the projections ending in it, and every projection exactly the spike messages its input channels and its source population send in the same step; nothing is lost, duplicated, reordered, late or misdelivered, and exceptions propagate.", "quantifier": "every network, wiring of inputs, number of channels, number of steps, and every sequence of calls on other endpoints between steps", "why_tests_cant": "Needs all networks and runs of any length; tests run a few fixed networks.", "anchors": ["knp/backends/cpu/cpu-single-threaded-backend/impl/backend.cpp: _step, _init", "knp/core-library/impl/message_bus.cpp", "knp/core-library/impl/message_endpoint.cpp", "knp/base-framework/impl/model_loader.cpp"]}
{"id": "C105", "title": "A spike arrives after its delay, end to end", "statement": "In a running network, in step T the postsynaptic population receives from a synapse of delay D exactly as many impacts as its source neuron spiked in step T-D (none before step D), each with the synapse's weight, type and ends.", "quantifier": "every network, run, projection, synapse and step", "why_tests_cant": "All networks, delays and run lengths.", "anchors": ["knp/backends/cpu/cpu-single-threaded-backend/impl/backend.cpp: _step, _init", "knp/backends/cpu/cpu-library/include/knp/backends/cpu-library/impl/projections/delta/delta_impl.h", "knp/backends/cpu/cpu-library/include/knp/backends/cpu-library/projections.h"]}
{"id": "C106", "title": "A running network on threads is a dataflow", "statement": "The same dataflow on the multi-threaded backend under every schedule of its worker threads; messages from outside are routed after the populations' calculation.", "quantifier": "every network, schedule of every parallel phase, part size, and run", "why_tests_cant": "All schedules.", "anchors": ["knp/backends/cpu/cpu-multi-threaded-backend/impl/backend.cpp: _step, calculate_populations, calculate_projections", "knp/core-library/impl/message_bus.cpp"]}
{"id": "C107", "title": "Both backends compute the same network", "statement": "A network that runs on the single-threaded backend gives the same neuron states, spikes and impacts on the multi-threaded backend, step by step, up to the order inside a message, under every schedule.", "quantifier": "every network, every schedule and part size, runs of any length", "why_tests_cant": "All schedules and run lengths.", "anchors": ["knp/backends/cpu/cpu-single-threaded-backend/impl/backend.cpp: _step, _init", "knp/backends/cpu/cpu-multi-threaded-backend/impl/backend.cpp: _step, calculate_populations, calculate_projections"]}
{"id": "C108", "title": "Punishment lowers stability", "statement": "A dopamine reward D at a neuron that is being forced, and a dopamine punishment D (D < 0) at any other neuron, lower the neuron's stability by r*|D| (not below zero); a punishment of a neuron whose last spike was forced changes nothing.", "quantifier": "every neuron state and dopamine value", "why_tests_cant": "All values and states; the sign of D matters.", "anchors": ["knp/backends/cpu/cpu-library/include/knp/backends/cpu-library/impl/populations/blifat/blifat_stdp.h: do_dopamine_plasticity_impl", "knp/backends/cpu/cpu-library/include/knp/backends/cpu-library/impl/populations/altai/altai_stdp.h"]}
{"id": "C109", "title": "One Hebbian update per spike train", "statement": "A synapse that contributes to the spikes of a train gets the Hebbian increase once per train, and loses d_u with each spike.", "quantifier": "every neuron, synapse and spike history", "why_tests_cant": "All histories.", "anchors": ["knp/backends/cpu/cpu-library/include/knp/backends/cpu-library/impl/populations/blifat/blifat_stdp.h: process_spiking_neurons_impl"]}
{"id": "C110", "title": "Training-only spikes cause no impacts", "statement": "Spikes of a population registered as STDP-only at an additive-STDP projection never cause synaptic impacts; all other spikes do.", "quantifier": "every projection, registration and message list", "why_tests_cant": "All message lists.", "anchors": ["knp/backends/cpu/cpu-library/include/knp/backends/cpu-library/impl/projections/training/stdp/additive_stdp.h: init_projection"]}
{"id": "C111", "title": "A learning network is a dataflow", "statement": "The dataflow of a running network holds for every population and projection type of the single-threaded backend and while it learns: populations act in order on the shared synapses, projections also hear the populations they are trained with, and exceptions propagate.", "quantifier": "every network of plain and trained populations, delta, resource-STDP and additive-STDP projections; every run and every sequence of foreign bus calls", "why_tests_cant": "Needs all networks and runs of any length.", "anchors": ["knp/backends/cpu/cpu-single-threaded-backend/impl/backend.cpp: _step, _init", "knp/backends/cpu/cpu-library/include/knp/backends/cpu-library/populations_old.h", "knp/backends/cpu/cpu-library/include/knp/backends/cpu-library/init.h", "knp/backends/cpu/cpu-library/include/knp/backends/cpu-library/projections.h"]}
{"id": "C112", "title": "Last spike step", "statement": "The last-spike step a resource synapse is trained with is the last step in which its source neuron was in a message the projection received (as loaded if there was none).", "quantifier": "every network, run, projection and synapse", "why_tests_cant": "All spike histories.", "anchors": ["knp/backends/cpu/cpu-library/include/knp/backends/cpu-library/impl/projections/delta/delta_impl.h", "knp/backends/cpu/cpu-library/include/knp/backends/cpu-library/impl/projections/training/stdp/synaptic_resource_stdp.h"]}
{"id": "C113", "title": "Delay and weight while learning, end to end", "statement": "In a learning network, in step T the postsynaptic population receives from a synapse of delay D one impact per spike of its source neuron in step T-D, carrying the weight the synapse had when the spike was processed (after the training of that step for resource synapses, before it for additive synapses).", "quantifier": "every network, run, projection, synapse and step", "why_tests_cant": "All training histories; the weight at sending and at arrival differ.", "anchors": ["knp/backends/cpu/cpu-single-threaded-backend/impl/backend.cpp: _step, _init", "knp/backends/cpu/cpu-library/include/knp/backends/cpu-library/impl/projections/delta/delta_impl.h", "knp/backends/cpu/cpu-library/include/knp/backends/cpu-library/projections.h"]}
{"id": "C114", "title": "Training-only populations cause no impacts in a running network", "statement": "In a running network, spikes of a population that is registered at a projection as STDP-only cause no synaptic impacts through it, for every STDP synapse type.", "quantifier": "every network, run, STDP projection and registration", "why_tests_cant": "All runs and registrations.", "anchors": ["knp/backends/cpu/cpu-library/include/knp/backends/cpu-library/init.h", "knp/backends/cpu/cpu-library/include/knp/backends/cpu-library/impl/projections/training/stdp/additive_stdp.h: init_projection", "knp/backends/cpu/cpu-library/include/knp/backends/cpu-library/impl/projections/training/stdp/synaptic_resource_stdp.h", "knp/core-library/include/knp/core/projection.h"]}
{"id": "C115", "title": "A neuron in a running network", "statement": "In each step of a running network every neuron takes exactly one step of its own model with exactly the impacts addressed to it, and it is in its population's spike message of that step exactly if that step says it spikes; a trained population is then trained exactly once, with exactly the neurons that spiked, that step and the unlocked resource projections that end in it, and the next step starts from what training left.", "quantifier": "every network of plain and trained populations, every run, step, population and neuron", "why_tests_cant": "All networks and run lengths; effects of other populations, projections and inputs on the neuron.", "anchors": ["knp/backends/cpu/cpu-single-threaded-backend/impl/backend.cpp: _step, _init", "knp/backends/cpu/cpu-library/include/knp/backends/cpu-library/populations_old.h", "knp/backends/cpu/cpu-library/include/knp/backends/cpu-library/populations.h"]}
{"id": "C116", "title": "Output channels of a program", "statement": "In a program that runs a loaded model, an output channel holds, at any time and in the order of their steps, exactly the spike messages its populations (or other senders) sent in the iterations so far, minus those read; a read of a window returns exactly the messages of these steps and never fails; what was read and what is left are together exactly what was sent.", "quantifier": "every network, program code, number of starts and steps, layout of endpoints, and interleaving of runs and reads", "why_tests_cant": "Needs all histories of runs and reads with arbitrary user code.", "anchors": ["knp/base-framework/impl/model_executor.cpp", "knp/base-framework/impl/model_loader.cpp", "knp/core-library/impl/backend.cpp: start", "knp/base-framework/impl/output_channel.cpp"]}
{"id": "C117", "title": "Message handlers in a program", "statement": "In every iteration a handler gets exactly the spike messages of that iteration from its senders, once each; its answer reaches exactly the projections it is connected to, exactly one step later, carrying that step's number, and never again.", "quantifier": "every network, handler code and layout, run, iteration and handler", "why_tests_cant": "All handler functions with shared state, all runs.", "anchors": ["knp/base-framework/impl/model_executor.cpp", "knp/base-framework/impl/model_loader.cpp", "knp/core-library/impl/backend.cpp: start"]}
{"id": "C118", "title": "Observers in a program", "statement": "An observer is called once per iteration with exactly the messages of its kind its senders have on the bus in that iteration.", "quantifier": "every network, layout, run and observer", "why_tests_cant": "All runs and layouts.", "anchors": ["knp/base-framework/impl/model_executor.cpp", "knp/base-framework/impl/model_loader.cpp", "knp/core-library/impl/backend.cpp: start", "knp/base-framework/include/knp/framework/monitoring/observer.h"]}
{"id": "C119", "title": "A program runs its model", "statement": "Whatever generators, handlers, observers and the predicate do, the network inside a program makes exactly the steps of the network alone, fed with what the generators and handlers returned; `start` performs iterations with consecutive step numbers until its predicate is false.", "quantifier": "every program, network and run", "why_tests_cant": "Arbitrary user code with shared state; runs of any length.", "anchors": ["knp/base-framework/impl/model_executor.cpp", "knp/base-framework/impl/model_loader.cpp", "knp/core-library/impl/backend.cpp: start", "knp/backends/cpu/cpu-single-threaded-backend/impl/backend.cpp: _step, _init"]}
{"id": "C120", "title": "Input channels in a program", "statement": "A projection connected to an input channel gets in every iteration exactly what the channel's generator returned for that step (nothing without spikes), together with what the generator returned in pre-step calls that ended earlier runs since the last iteration; nothing is lost, doubled or late.", "quantifier": "every program, run, channel and connected projection", "why_tests_cant": "All generators and all divisions into runs.", "anchors": ["knp/base-framework/impl/model_executor.cpp", "knp/base-framework/impl/model_loader.cpp", "knp/core-library/impl/backend.cpp: start", "knp/base-framework/include/knp/framework/io/input_channel.h"]}
{"id": "C121", "title": "Splitting a run changes nothing", "statement": "Running a model in several calls of `start` gives the same result as running it at once, if the generators return the same for each step.", "quantifier": "every program and division into runs", "why_tests_cant": "All divisions of runs.", "anchors": ["knp/base-framework/impl/model_executor.cpp", "knp/base-framework/impl/model_loader.cpp", "knp/core-library/impl/backend.cpp: start"]}
{"id": "C122", "title": "The program's functions are called in order", "statement": "In every iteration the generators are called in turn, once each, with the step number; then the predicate; after the step the handlers in turn and the observers in turn, each with what it got; in the pre-step call that ends a run only generators and predicate. What generators and handlers return is what is sent.", "quantifier": "every program whose functions share any state, and every run", "why_tests_cant": "All stateful functions; order of effects.", "anchors": ["knp/base-framework/impl/model_executor.cpp", "knp/base-framework/impl/model_loader.cpp", "knp/core-library/impl/backend.cpp: start"]}
{"id": "C123", "title": "A learning network on threads is a dataflow", "statement": "On the multi-threaded backend, under every schedule of its worker threads, a learning network makes in each step exactly this: every population computes with the impact messages that wait for it; then every population is trained once, in any order; then every projection conducts the spikes it hears with the weights training left. Exceptions propagate.", "quantifier": "every network, schedule of every parallel phase, part size, and run", "why_tests_cant": "All schedules and runs.", "anchors": ["knp/backends/cpu/cpu-multi-threaded-backend/impl/backend.cpp: _step, calculate_populations, calculate_projections"]}
{"id": "C124", "title": "Schedules do not show in what a network learns", "statement": "Two runs of the same network on the multi-threaded backend with the same input, whatever the worker threads do and into whatever parts the work is cut, end with the same neurons, weights and resources, and send the same messages in each step, up to the order inside a message.", "quantifier": "every network, pair of schedules and part sizes, and run", "why_tests_cant": "All schedules.", "anchors": ["knp/backends/cpu/cpu-multi-threaded-backend/impl/backend.cpp: _step, calculate_populations, calculate_projections", "knp/backends/cpu/cpu-library/include/knp/backends/cpu-library/impl/populations/training/stdp.h"]}
{"id": "C125", "title": "Both backends teach a network alike", "statement": "A network trained on the single-threaded backend ends with the same neurons, weights and resources when trained on the multi-threaded backend with the same input.", "quantifier": "every network, schedule, part size and run", "why_tests_cant": "All networks, runs and schedules.", "anchors": ["knp/backends/cpu/cpu-single-threaded-backend/impl/backend.cpp: _step, _init", "knp/backends/cpu/cpu-multi-threaded-backend/impl/backend.cpp: _step, calculate_populations, calculate_projections"]}
{"id": "C126", "title": "Delay and weight while learning on threads, end to end", "statement": "On the multi-threaded backend, under every schedule, in step T the postsynaptic population receives through a synapse of delay D at most one impact: the weight training had given the synapse in step T-D times the number of spikes of its source neuron in the message the projection took in that step; nothing if there was none.", "quantifier": "every network, schedule, run, projection, synapse and step", "why_tests_cant": "All schedules, delays and training histories.", "anchors": ["knp/backends/cpu/cpu-multi-threaded-backend/impl/backend.cpp: _step, calculate_populations, calculate_projections", "knp/backends/cpu/cpu-library/include/knp/backends/cpu-library/impl/projections/delta/delta_impl.h"]}
{"id": "C127", "title": "ZeroMQ bus: exactly once and in order", "statement": "On a ZeroMQ bus, every message a sender sends through one endpoint reaches every receiver subscribed to it exactly once and in the order of sending.", "quantifier": "every history of calls on the bus and its endpoints, every choice of ZeroMQ (which endpoint is read, when endpoints are attached, how full pipes are), every subscription", "why_tests_cant": "All histories and all scheduling choices of the transport.", "anchors": ["knp/core-library/impl/message_bus_zmq_impl/message_bus_zmq_impl.cpp", "knp/core-library/impl/message_bus_zmq_impl/message_endpoint_zmq_impl.cpp", "knp/core-library/impl/message_bus_zmq_impl/message_endpoint_zmq_impl.h", "knp/core-library/impl/message_endpoint.cpp", "knp/core-library/impl/message_bus.cpp"]}
{"id": "C128", "title": "ZeroMQ bus: sending returns", "statement": "send_message returns, whatever was sent before.", "quantifier": "every history and state of the transport", "why_tests_cant": "Needs all histories; blocking occurs only after thousands of messages.", "anchors": ["knp/core-library/impl/message_bus_zmq_impl/message_bus_zmq_impl.cpp", "knp/core-library/impl/message_bus_zmq_impl/message_endpoint_zmq_impl.cpp", "knp/core-library/impl/message_bus_zmq_impl/message_endpoint_zmq_impl.h", "knp/core-library/impl/message_endpoint.cpp", "knp/core-library/impl/message_bus.cpp"]}
{"id": "C129", "title": "ZeroMQ bus: routing drains and counts", "statement": "route_messages ends, leaves nothing unrouted, gives every message once to every connected endpoint, and returns the number of messages routed.", "quantifier": "every history and choice of the transport", "why_tests_cant": "All histories and choices.", "anchors": ["knp/core-library/impl/message_bus_zmq_impl/message_bus_zmq_impl.cpp", "knp/core-library/impl/message_bus_zmq_impl/message_endpoint_zmq_impl.cpp", "knp/core-library/impl/message_bus_zmq_impl/message_endpoint_zmq_impl.h", "knp/core-library/impl/message_endpoint.cpp", "knp/core-library/impl/message_bus.cpp"]}
{"id": "C130", "title": "The two buses are interchangeable", "statement": "The same calls on the in-process bus and on the ZeroMQ bus give every receiver the same messages.", "quantifier": "every history and choice of the transport", "why_tests_cant": "Relates two implementations over all histories.", "anchors": ["knp/core-library/impl/message_bus_zmq_impl/message_bus_zmq_impl.cpp", "knp/core-library/impl/message_bus_zmq_impl/message_endpoint_zmq_impl.cpp", "knp/core-library/impl/message_bus_zmq_impl/message_endpoint_zmq_impl.h", "knp/core-library/impl/message_endpoint.cpp", "knp/core-library/impl/message_bus.cpp", "knp/core-library/impl/message_bus_cpu_impl/message_bus_cpu_impl.cpp"]}
{"id": "C131", "title": "ZeroMQ bus: nothing but what is subscribed", "statement": "On a ZeroMQ bus a receiver gets only messages of the kind and senders it is subscribed to when they are received, and only messages that were sent.", "quantifier": "every history and choice of the transport, endpoint, receiver and message", "why_tests_cant": "All histories.", "anchors": ["knp/core-library/impl/message_bus_zmq_impl/message_bus_zmq_impl.cpp", "knp/core-library/impl/message_bus_zmq_impl/message_endpoint_zmq_impl.cpp", "knp/core-library/impl/message_bus_zmq_impl/message_endpoint_zmq_impl.h", "knp/core-library/impl/message_endpoint.cpp", "knp/core-library/impl/message_bus.cpp"]}
{"id": "C132", "title": "ZeroMQ bus: no exceptions", "statement": "No call on a ZeroMQ bus or its endpoints throws: every message that arrives can be decoded; all calls but sending and routing return in every state.", "quantifier": "every history and choice of the transport", "why_tests_cant": "All histories and messages.", "anchors": ["knp/core-library/impl/message_bus_zmq_impl/message_bus_zmq_impl.cpp", "knp/core-library/impl/message_bus_zmq_impl/message_endpoint_zmq_impl.cpp", "knp/core-library/impl/message_bus_zmq_impl/message_endpoint_zmq_impl.h", "knp/core-library/impl/message_endpoint.cpp", "knp/core-library/impl/message_bus.cpp"]}
{"id": "C133", "title": "CUDA: a loaded network is what runs", "statement": "Populations and projections loaded into the CUDA backend, with load_all_populations and load_all_projections (as the model loader does) or with load_populations and load_projections, are the ones its steps compute.", "quantifier": "every network and run", "why_tests_cant": "All networks and numbers of steps.", "anchors": ["knp/backends/gpu/cuda-backend/impl/backend.cu: load_populations, load_projections, load_all_populations, load_all_projections", "knp/base-framework/impl/model_loader.cpp"]}
{"id": "C134", "title": "CUDA: a population steps as on the CPU", "statement": "Given the same neurons and the same impact messages, a BLIFAT population makes on the device the step it makes on the CPU: same neurons after it and same spike message.", "quantifier": "every population, list of messages and step", "why_tests_cant": "All neuron states and message lists.", "anchors": ["knp/backends/gpu/cuda-backend/impl/backend_impl.cu: calculate_population", "knp/backends/cpu/cpu-library/include/knp/backends/cpu-library/impl/populations/blifat/blifat_impl.h"]}
{"id": "C135", "title": "CUDA: a spike arrives after its delay, end to end", "statement": "In a network running on the CUDA backend, in step T the postsynaptic population is given from a synapse of delay D exactly as many impacts as its source neuron occurred in the spike messages its projection was given in step T-D (none before step D), each with the synapse's weight, type and ends.", "quantifier": "every network, run, thread order, projection, synapse and step", "why_tests_cant": "All delays, run lengths and thread orders.", "anchors": ["knp/backends/gpu/cuda-backend/impl/backend.cu: _step, _init", "knp/backends/gpu/cuda-backend/impl/backend_impl.cu: calculate_populations, calculate_projections, route_projection_messages", "knp/backends/gpu/cuda-backend/impl/cuda_bus/message_bus.cu"]}
{"id": "C136", "title": "CUDA: no echo", "statement": "The backend sends to the bus only messages of its own network (or empty messages of nobody), never a message it received from the bus.", "quantifier": "every network, run and thread order", "why_tests_cant": "All runs.", "anchors": ["knp/backends/gpu/cuda-backend/impl/backend.cu: _step, _init", "knp/backends/gpu/cuda-backend/impl/backend_impl.cu: calculate_populations, calculate_projections, route_projection_messages", "knp/backends/gpu/cuda-backend/impl/cuda_bus/message_bus.cu"]}
{"id": "C137", "title": "CUDA: observers see every message once", "statement": "Every spike message of a population and every impact message of a projection on the device is sent to the bus exactly once.", "quantifier": "every network, run and thread order", "why_tests_cant": "All runs.", "anchors": ["knp/backends/gpu/cuda-backend/impl/backend.cu: _step, _init", "knp/backends/gpu/cuda-backend/impl/backend_impl.cu: calculate_populations, calculate_projections, route_projection_messages", "knp/backends/gpu/cuda-backend/impl/cuda_bus/message_bus.cu"]}
{"id": "C138", "title": "CUDA: input messages arrive once", "statement": "A projection on the device that is connected to an input channel is given every message of the channel exactly once, in the step after it was sent.", "quantifier": "every network, wiring, run and thread order", "why_tests_cant": "All wirings.", "anchors": ["knp/backends/gpu/cuda-backend/impl/backend.cu: _step, _init", "knp/backends/gpu/cuda-backend/impl/backend_impl.cu: calculate_populations, calculate_projections, route_projection_messages", "knp/backends/gpu/cuda-backend/impl/cuda_bus/message_bus.cu", "knp/backends/gpu/cuda-backend/impl/cuda_bus/message_bus.cu: receive_messages_from_host"]}
{"id": "C139", "title": "CUDA: thread order does not show", "statement": "Two runs of the same network with the same inputs give the same spikes, whatever the order in which device threads run.", "quantifier": "every network, input and pair of thread orders", "why_tests_cant": "All schedules.", "anchors": ["knp/backends/gpu/cuda-backend/impl/backend.cu: _step, _init", "knp/backends/gpu/cuda-backend/impl/backend_impl.cu: calculate_populations, calculate_projections, route_projection_messages", "knp/backends/gpu/cuda-backend/impl/cuda_bus/message_bus.cu", "knp/backends/gpu/cuda-backend/impl/cuda_bus/message_bus.cu: find_messages_kernel"]}
{"id": "C140", "title": "CUDA: a running network is a dataflow", "statement": "For every order of device threads, each population is given in each step exactly the impact messages sent in the step before by the projections ending in it, and each projection exactly the spike messages of its source population in this step and those of its channels; no step throws; a network whose synapses end in existing neurons never indexes outside a population (device vectors taken as lists; their memory is a property of its own).", "quantifier": "every network, run, thread order and messages of the rest of the program", "why_tests_cant": "All schedules and run lengths.", "anchors": ["knp/backends/gpu/cuda-backend/impl/backend.cu: _step, _init", "knp/backends/gpu/cuda-backend/impl/backend_impl.cu: calculate_populations, calculate_projections, route_projection_messages", "knp/backends/gpu/cuda-backend/impl/cuda_bus/message_bus.cu"]}
{"id": "C141", "title": "CUDA: late subscriptions take effect", "statement": "A subscription made on the backend's endpoint after the first step delivers messages to its receiver as one made before.", "quantifier": "every run and later calls", "why_tests_cant": "All histories.", "anchors": ["knp/backends/gpu/cuda-backend/impl/backend.cu: _step, _init", "knp/backends/gpu/cuda-backend/impl/backend_impl.cu: calculate_populations, calculate_projections, route_projection_messages", "knp/backends/gpu/cuda-backend/impl/cuda_bus/message_bus.cu", "knp/backends/gpu/cuda-backend/impl/cuda_bus/message_bus.cu: sync_with_host"]}
{"id": "C142", "title": "CUDA: devices can be selected", "statement": "A GPU returned by get_devices can be selected by its UID.", "quantifier": "every number of GPUs and history", "why_tests_cant": "All histories of calls.", "anchors": ["knp/backends/gpu/cuda-backend/impl/backend.cu: get_devices, select_devices", "knp/backends/gpu/cuda-backend/impl/gpu_cuda_device.cu", "knp/core-library/impl/backend.cpp: select_devices"]}
{"id": "C143", "title": "CUDA: refractory period", "statement": "On the device a neuron is in its population's spike message only if more steps than its refractory period have passed since its last spike; its counter then starts anew, and otherwise counts one per step.", "quantifier": "every population, list of messages and neuron", "why_tests_cant": "All states and message lists.", "anchors": ["knp/backends/gpu/cuda-backend/impl/backend_impl.cu: calculate_population"]}
{"id": "C144", "title": "CUDA: device vectors are lists", "statement": "For every history of calls on device vectors (construction, copy, move, assignment, set, push, pop, reserve, resize, erase, extraction, conversion, on the host or on the device), every call ends, returns what it returns on lists, vectors share no memory, and no memory is left once all are destroyed.", "quantifier": "every element type, number of vectors and history of calls", "why_tests_cant": "All histories and memory states.", "anchors": ["knp/backends/gpu/cuda-backend/impl/cuda_lib/vector.cuh", "knp/backends/gpu/cuda-backend/impl/cuda_lib/vector_kernels.cuh", "knp/backends/gpu/cuda-backend/impl/cuda_lib/cu_alloc.cuh"]}
{"id": "C145", "title": "CUDA: equality of device vectors", "statement": "Two device vectors compare equal, on the host and on the device, exactly if they have the same elements.", "quantifier": "every history and pair of vectors", "why_tests_cant": "All vectors.", "anchors": ["knp/backends/gpu/cuda-backend/impl/cuda_lib/vector.cuh: operator==", "knp/backends/gpu/cuda-backend/impl/cuda_lib/vector_kernels.cuh: equal_kernel"]}
{"id": "C146", "title": "Visualizer: parts are connected parts", "statement": "divide_graph_by_connectivity ends and returns the connected parts of the network: every population is in exactly one of them, and two populations are in the same one exactly if projections join them, in any direction.", "quantifier": "every network and order of the sets", "why_tests_cant": "All graphs; the order in which sets are traversed varies.", "anchors": ["knp/base-framework/impl/visualizer/visualize_network.cpp: divide_graph_by_connectivity, find_connected_set, make_reverse_list, build_adjacency_list"]}
{"id": "C147", "title": "Visualizer: springs are projections", "statement": "In the layout of some populations two of them attract each other exactly if there is a projection between them.", "quantifier": "every network and set of populations", "why_tests_cant": "All graphs and subsets.", "anchors": ["knp/base-framework/impl/visualizer/graph_physics.cpp: VisualGraph", "knp/base-framework/impl/visualizer/visualize_network.cpp: position_network"]}
{"id": "C148", "title": "Visualizer: the picture fits the window", "statement": "All points of the scaled picture lie inside the margins, and where they lie depends on their positions relative to each other only.", "quantifier": "all positions, window sizes and margins", "why_tests_cant": "All positions.", "anchors": ["knp/base-framework/impl/visualizer/graph_physics.cpp: scale_graph"]}
{"id": "C149", "title": "Visualizer: the layout does not drift", "statement": "Iterating the layout never moves the centre of the points, so position_network returns for every node a point inside the margins, scaled by the box the points really lie in.", "quantifier": "every network, start, number of iterations and parameters", "why_tests_cant": "All numbers of iterations.", "anchors": ["knp/base-framework/impl/visualizer/graph_physics.cpp: iterate, get_force", "knp/base-framework/impl/visualizer/visualize_network.cpp: position_network"]}
{"id": "C150", "title": "Visualizer: the picture shows the network", "statement": "The picture of some populations shows one line for each projection between them and for each input of them, one dot for each of them and its name at the dot.", "quantifier": "every network and set of populations", "why_tests_cant": "All graphs and subsets.", "anchors": ["knp/base-framework/impl/visualizer/visualize_network.cpp: draw_annotated_subgraph, draw_edges, position_network_test"]}
{"id": "C151", "title": "CPU devices: stable identity", "statement": "get_devices of a CPU backend returns one device for each processor that is online; in every call with the same UIDs, and the socket number of each can be read.", "quantifier": "every machine and history of calls", "why_tests_cant": "All machines and histories.", "anchors": ["knp/backends/cpu/cpu-devices/impl/x86_cpu.cpp", "knp/backends/cpu/cpu-devices/impl/unknown_cpu.cpp", "knp/backends/cpu/cpu-single-threaded-backend/impl/backend.cpp: _step, _initimpl/backend.cpp: get_devices", "knp/backends/cpu/cpu-multi-threaded-backend/impl/backend.cpp: _step, calculate_populations, calculate_projectionsimpl/backend.cpp: get_devices"]}
{"id": "C152", "title": "Selecting devices", "statement": "select_devices selects exactly the devices with the given UIDs, and throws if one of them is not there.", "quantifier": "every backend, selection before and set of UIDs", "why_tests_cant": "All devices and histories.", "anchors": ["knp/core-library/impl/backend.cpp: select_devices"]}
{"id": "C153", "title": "Names of network objects", "statement": "The name of a network object is the one set last, or its UID if none was set; asking for it never fails.", "quantifier": "every history of calls on the object's tags", "why_tests_cant": "All histories.", "anchors": ["knp/base-framework/include/knp/framework/tags/name.h", "knp/base-framework/impl/visualizer/visualize_network.cpp: get_name"]}
{"id": "C154", "title": "The network for inference", "statement": "After building a network with a constructor, training it and preparing it, the network for inference holds exactly the populations added to be kept and the projections added between two such, as trained; every end of a projection is one of its populations, or a channel or winner-takes-all handler; its output populations are there.", "quantifier": "every history of building calls and every result of training", "why_tests_cant": "All histories.", "anchors": ["examples/mnist-learn/models/network_constructor.h", "examples/mnist-learn/models/blifat/prepare_network_for_inference.cpp", "examples/mnist-learn/models/altai/prepare_network_for_inference.cpp"]}
{"id": "C155", "title": "Winner-takes-all replaced by connections", "statement": "Preparing an AltAI network connects every sender of a winner-takes-all group to every projection of the group by a copy of that projection, and leaves all other projections as they are.", "quantifier": "every network and list of groups", "why_tests_cant": "All networks and groups.", "anchors": ["examples/mnist-learn/models/altai/prepare_network_for_inference.cpp: replace_wta_with_projections"]}
{"id": "C156", "title": "Range of a quantised network", "statement": "In a network prepared for AltAI all weights and all thresholds of populations a projection ends in are whole numbers from -255 to 255.", "quantifier": "every network", "why_tests_cant": "All weights and thresholds.", "anchors": ["examples/mnist-learn/models/altai/prepare_network_for_inference.cpp: quantize_network"]}
{"id": "C157", "title": "Quantisation preserves what a network computes", "statement": "Quantisation multiplies the thresholds of a population and the weights of all projections ending in it by one factor, up to rounding, so a sum of weights not within the rounding of the threshold is on the same side of it as before.", "quantifier": "every network, population and sum of weights", "why_tests_cant": "All weights and thresholds.", "anchors": ["examples/mnist-learn/models/altai/prepare_network_for_inference.cpp: quantize_network"]}
{"id": "C158", "title": "Resource of a weight", "statement": "resource_from_weight returns the one resource with which a synapse has the weight, for every weight from the minimum to just below the maximum, given in either order, and throws for other weights.", "quantifier": "all weights and limits", "why_tests_cant": "All numbers.", "anchors": ["examples/mnist-learn/models/resource_from_weight.h: resource_from_weight", "knp/backends/cpu/cpu-library/include/knp/backends/cpu-library/impl/populations/training/stdp.h: recalculate_synapse_weights"]}
{"id": "C159", "title": "Winner-take-all groups in a program", "statement": "After add_wta_handlers with k winners and given borders, the projections named as receivers of a pair get, exactly one step after its sender populations fired and from the returned handler UID, k spikes of every group (all of the group if there are fewer), each of them fired in that step and none more often than it was fired; one UID per pair is returned, in order.", "quantifier": "every network, program, list of sender/receiver pairs, borders, k, random engine, schedule of runs and step", "why_tests_cant": "the winners are drawn at random and arrive through bus, executor and backend; tests look at single handlers", "anchors": ["knp/base-framework/impl/projection/wta.cpp: add_wta_handlers", "knp/base-framework/impl/message_handlers.cpp: KWtaPerGroup::operator()", "knp/base-framework/impl/model_executor.cpp: SpikeMessageHandler::update"]}
{"id": "C160", "title": "Thread schedules do not show in a program", "statement": "Two runs of the same program on the multi-threaded backend give the same, item by item - answers of generators and handlers, messages for everyone up to the order inside a message, what is read from output channels - and leave the same neurons, weights, resources and program state, whatever the threads do and however the work is split.", "quantifier": "every network, program, sequence of runs and reads, part sizes and pair of thread schedules", "why_tests_cant": "schedules cannot be enumerated; the feedback through handlers and learning makes any difference grow", "anchors": ["knp/backends/cpu/cpu-multi-threaded-backend/impl/backend.cpp: _step, calculate_populations, calculate_projectionsimpl/backend.cpp: _step, calculate_populations, calculate_projections", "knp/base-framework/impl/model_executor.cpp: start"]}
{"id": "C161", "title": "A program gives the same on both CPU backends", "statement": "A program run on the single-threaded and on the multi-threaded backend gives the same, item by item, up to the order inside messages, and leaves the same neurons, weights, resources and program state.", "quantifier": "every network, program, sequence of runs and reads, part sizes and thread schedule", "why_tests_cant": "holds for all programs and schedules; tests compare single networks without user functions", "anchors": ["knp/backends/cpu/cpu-single-threaded-backend/impl/backend.cpp: _step, _initimpl/backend.cpp: _step", "knp/backends/cpu/cpu-multi-threaded-backend/impl/backend.cpp: _step, calculate_populations, calculate_projectionsimpl/backend.cpp: _step", "knp/base-framework/impl/model_executor.cpp: start"]}
{"id": "C162", "title": "A network that fits together never fails", "statement": "If all UIDs differ, every synapse of a projection ends in an existing neuron of the population the projection ends in (if it is loaded), and that neuron type handles the output type of the synapse, then no step throws or has undefined behaviour, however long the network runs, whatever spikes the channels and handlers send and whatever the threads do; the threads can always finish; LIF handles excitatory and inhibitory-current, BLIFAT everything (blocking needs a value in the 64-bit range), AltAI all but conductance (blocking needs a non-negative such value).", "quantifier": "every network, program, run length, input and thread schedule; every neuron state, output type and value", "why_tests_cant": "failures depend on states and messages that only appear in particular runs; a type error in one synapse shows when its source first spikes", "anchors": ["knp/backends/cpu/cpu-single-threaded-backend/impl/backend.cpp: _step, _initimpl/backend.cpp: _step", "knp/backends/cpu/cpu-multi-threaded-backend/impl/backend.cpp: _step, calculate_populations, calculate_projectionsimpl/backend.cpp: _step", "knp/core-library/include/knp/core/projection.h", "knp/backends/cpu/cpu-library/include/knp/backends/cpu-library/impl/populations/lif/lif_impl.h", "knp/backends/cpu/cpu-library/include/knp/backends/cpu-library/impl/populations/blifat/blifat_impl.h", "knp/backends/cpu/cpu-library/include/knp/backends/cpu-library/impl/populations/altai/altai_impl.h", "knp/base-framework/impl/model_executor.cpp: start"]}
{"id": "C163", "title": "Weight bounds in floating point", "statement": "Computed in float with every operation rounded, the weight recalculated from a resource is never below w_min and never above w_max, for every resource.", "quantifier": "all representable bounds w_min < w_max and all resources (normal range), any precision", "why_tests_cant": "rounding errors appear at particular values among 2^96 combinations", "anchors": ["knp/backends/cpu/cpu-library/include/knp/backends/cpu-library/impl/populations/training/stdp.h: recalculate_synapse_weights"]}
{"id": "C164", "title": "Carrying on with a copy of a running network", "statement": "Running a network, taking a copy of it with get_network_copy and running the copy in a new backend with the rest of the input does in every step what one uninterrupted run does, except that the steps of the second run are counted from 0.", "quantifier": "every network, every point at which the copy is taken, every input before and after", "why_tests_cant": "depends on what is on its way between neurons at the moment of the copy; a test takes the copy at one moment of one run", "anchors": ["knp/base-framework/impl/synchronization.cpp: get_network_copy", "knp/backends/cpu/cpu-single-threaded-backend/impl/backend.cpp: _step, _initimpl/get_network.cpp: get_network_data", "knp/backends/cpu/cpu-single-threaded-backend/impl/backend.cpp: _step, _initimpl/backend.cpp: _step"]}
{"id": "C165", "title": "Logs of a running program", "statement": "While a program runs, the spikes log has one record for every spike message the named populations sent, in order, with the number of the step it was sent in; the aggregated log has one line every `period` steps, and the line with index s counts the spikes of each named population in the `period` steps made before s.", "quantifier": "every program, run, set of named populations and period", "why_tests_cant": "All programs, backends, periods and numbers of steps.", "anchors": ["knp/base-framework/impl/monitoring/model.cpp: make_aggregated_spikes_observer_function", "knp/base-framework/impl/model_executor.cpp: start"]}
{"id": "C166", "title": "The example's network", "statement": "For sizes that fit the machine, the BLIFAT MNIST example builds exactly the network it describes: per subnetwork the three populations with their sizes, seven projections with exactly the described connections, weights, delays and types; the framework's connectivity check reports nothing; the network can be run on a backend without ever failing, and training it makes exactly as many steps as the dataset says and then returns.", "quantifier": "all sizes, weights, numbers of subnetworks, datasets, random draws and loggers", "why_tests_cant": "The theorem is for every network size and every dataset, including what the network's own activity does in thousands of steps.", "anchors": ["examples/mnist-learn/models/blifat/construct_network.cpp: construct_network", "examples/mnist-learn/training.h: train_network", "examples/mnist-learn/models/blifat/spike_generators.cpp: make_training_labels_spikes_generator", "examples/mnist-learn/models/network_constructor.h: NetworkConstructor"]}
{"id": "C167", "title": "What training shows the example's network", "statement": "In every step of the example's training the trained projection hears exactly the active pixels of the current frame; the label projections hear exactly the label of the frame, once per frame; the output projection hears winners of every column among the input neurons that fired in the step before; and an input neuron is rewarded with dopamine exactly three steps after the label of its own column was shown, once, and never otherwise.", "quantifier": "every step, subnetwork and neuron of every training run, any dataset and sizes", "why_tests_cant": "The reward rule quantifies over all steps and all activity of the network, which could produce impacts on the same neurons.", "anchors": ["examples/mnist-learn/training.h: build_channel_map_train", "examples/mnist-learn/models/blifat/construct_network.cpp: create_projections", "examples/mnist-learn/models/blifat/spike_generators.cpp: make_training_labels_spikes_generator", "knp/base-framework/impl/projection/wta.cpp: add_wta_handlers"]}
{"id": "C168", "title": "Inference of the MNIST example: what is kept of the trained network, what it is shown, what is predicted", "statement": "In the MNIST example (BLIFAT), after any training, prepare_network_for_inference keeps of every subnetwork exactly the input and output populations and the projections from the images and into the output, with all neurons and synapses as the training left them. infer_network returns: no step throws or is undefined, and it makes exactly as many steps as the dataset has for inference. In every step the projection from the images hears exactly the active pixels of the current sub-step of the current inference frame; no synapse changes; an input neuron gets through every synapse one impact with the learned weight if the pixel was active in the step before, and nothing else; two steps after neurons of the column of class c fired, output neuron c gets one impact of 10 for each but at most the number of winners, and nothing else. The returned spikes are exactly those of the output populations in all steps, ordered by time, and the prediction for a frame is the first class with the most output spikes during the steps of that frame.", "quantifier": "all parameters that fit the machine, datasets, training runs of any length, winner draws, loggers, new UIDs, steps, subnetworks and neurons", "why_tests_cant": "Composes the copy of a trained network with channels, winner-take-all, delays, locking, output buffering, sorting and evaluation; tests run one dataset and look at an accuracy figure.", "anchors": ["examples/mnist-learn/inference.h: infer_network", "examples/mnist-learn/models/blifat/prepare_network_for_inference.cpp: prepare_network_for_inference", "examples/mnist-learn/evaluate_results.cpp: evaluate_results", "knp/base-framework/impl/output_channel.cpp: update"]}
{"id": "C169", "title": "Logs of the MNIST example", "statement": "During infer_network, on any CPU backend, the raw spikes log has exactly one line per spike of every population and per winner of every winner-take-all handler, step by step, populations first, with the right step, name, UID and neuron; no line is UNKNOWN, no image spike is logged, and a winner is logged in the step in which the output population's projection hears it, one step after the spike it was chosen from. The console spikes log never throws. Whatever loggers the caller adds are called in every iteration, in turn, with what they observe, in training and in inference. During any training on the single-threaded backend the weights log of a trained projection never throws and gets a section exactly after the iterations whose step number is a multiple of the period: for every input neuron the resources (not the weights) and last spike steps of its synapses from all pixels, in the order of the pixels, as they are after that iteration.", "quantifier": "all fitting network sizes, datasets, trainings, lengths of the run, draws of winner-take-all, names, other loggers and periods", "why_tests_cant": "The files are written while spikes, handlers, learning and the step counter move; a test compares a few lines of one run.", "anchors": ["examples/mnist-learn/inference.h: infer_network", "examples/mnist-learn/training.h: train_network", "knp/base-framework/impl/monitoring/model.cpp: add_projection_weights_logger", "knp/base-framework/impl/monitoring/model.cpp: add_spikes_logger"]}
{"id": "C170", "title": "The simple-network example fires exactly when an input or a loop spike is due", "statement": "In the program of examples/simple-network (one default BLIFAT neuron, an input projection with weight 1 and a delay, a projection from the neuron into itself with weight 1 and a delay, on the single-threaded backend), whatever spikes the input generator gives, whatever the delays (at least 1) and however long the run: the neuron sends one spike message in exactly those steps that are an input spike plus the input delay plus any number of loop delays. Start with the predicate step < n makes exactly n steps and returns, and the printed steps are exactly those. As written (input every fifth step, delays 1 and 6, 20 steps), the program prints 1 6 7 11 12 13 16 17 18 19, and a longer run fires in every step from 21 on.", "quantifier": "all input sequences, delays, run lengths and steps, all distinct UIDs, every arithmetic in which counting in ones works", "why_tests_cant": "a test runs 20 steps with one input; it cannot cover all inputs, delays and lengths, nor the largest size_t and int64_t counters of the default neuron", "anchors": ["examples/simple-network/main.cpp: main", "examples/simple-network/main.cpp: synapse_generator", "knp/base-framework/impl/model_executor.cpp: start"]}
{"id": "C171", "title": "The MNIST client shows the images of its file and reports what the output populations say", "statement": "The mnist-client example reads exactly the complete images of its file, in order. Every image is shown as a number of frames; in frame k of an image the pixels on are exactly those whose brightness is at least 25.6 (k + 1) (ten levels). In step t every input projection hears from outside exactly the pixels of frame t, ascending. The input projections are exactly those with the looked-for number of synapses, and if there are none the client throws. Start makes exactly as many steps as there are frames and returns, and the client reports for every step the spikes of all output populations with the number of the step.", "quantifier": "all files, image sizes, numbers of frames and levels, networks, backends, run lengths", "why_tests_cant": "a test runs one file and one network; the statement is for every file length (also truncated ones), every brightness, every network and number of output populations", "anchors": ["examples/mnist-client/process_data.cpp: image_to_spikes", "examples/mnist-client/process_data.cpp: read_images_from_file", "examples/mnist-client/inference.cpp: do_inference", "examples/mnist-client/inference.cpp: make_input_image_generator", "examples/mnist-client/inference.cpp: make_observer_function"]}
{"id": "C172", "title": "Loading backends", "statement": "BackendLoader::load gives a new backend made by the library the path leads to, and throws exactly if there is no such library, it has no create_knp_backend, or that makes no backend; no two successful calls give the same backend; is_backend says beforehand whether load will find the function; a load that finds nothing leaves the loader as it was.", "quantifier": "every history of calls and of changes to the files, every path", "why_tests_cant": "A test loads one library once; the statement is about any history, in particular files that are replaced or removed between calls.", "anchors": ["knp/base-framework/impl/backend_loader.cpp: make_creator", "knp/base-framework/impl/backend_loader.cpp: load", "knp/base-framework/impl/backend_loader.cpp: is_backend"]}
{"id": "C173", "title": "One training step, neuron by neuron", "statement": "Training a population with resource synapses does to every neuron and to the trained synapses that end in it exactly what one formula makes of that neuron, those synapses, the step and whether the neuron spiked: additional threshold from the positive weights, stability and spike train, Hebbian gain and forgetting, dopamine, renormalisation. No other neuron, synapse or order of processing has a part in it, and training fails only if a neuron that is not in the population spiked.", "quantifier": "every population of BLIFAT or AltAI resource neurons, every set of projections, every list of spikes, step and parameters", "why_tests_cant": "The code works by loops over spikes, neurons, projections and synapses that read and write through pointers in three passes; a test sees one network, not that all networks follow one rule per neuron.", "anchors": ["knp/backends/cpu/cpu-library/include/knp/backends/cpu-library/impl/populations/training/stdp.h: renormalize_resource", "knp/backends/cpu/cpu-library/include/knp/backends/cpu-library/impl/populations/blifat/blifat_stdp.h: train_population_impl", "knp/backends/cpu/cpu-library/include/knp/backends/cpu-library/impl/populations/altai/altai_stdp.h: train_population_impl"]}
{"id": "C174", "title": "A neuron's step as a formula", "statement": "One step of a BLIFAT or AltAI-LIF neuron, plain or with synaptic resource, is one formula in its state, the currents of the step, the sums of its conductance and dopamine impacts, and its blocking impacts (for BLIFAT: the last one); a resource neuron counts as forced exactly in the steps in which an excitatory impact of a forcing message reaches it; the order of the impacts of a step makes no difference as long as at most one of them is blocking and sums do not depend on order.", "quantifier": "every neuron state, every list of impacts of any length", "why_tests_cant": "The code applies the impacts one by one, between two other passes over the population, each with branches on the state; a test tries a few short lists.", "anchors": ["knp/backends/cpu/cpu-library/include/knp/backends/cpu-library/impl/populations/blifat/blifat_impl.h: impact_neuron_impl", "knp/backends/cpu/cpu-library/include/knp/backends/cpu-library/impl/populations/altai/altai_impl.h: impact_neuron_impl", "knp/backends/cpu/cpu-library/include/knp/backends/cpu-library/impl/populations/blifat/blifat_dispatcher.h: impact_neuron_dispatch"]}
{"id": "C175", "title": "A projection is a list of synapses and a lock", "statement": "Whatever public calls are made on a projection, in any order, with lookups anywhere between them: its synapses, their order, its lock and the numbers the calls return are those of a plain list with the same calls, and a call is undefined exactly if it uses a position that list does not have; the lock is set in a new projection and afterwards what the last lock_weights or unlock_weights made it.", "quantifier": "every projection, every history of calls", "why_tests_cant": "All histories: a hidden index is rebuilt, kept or marked stale by each call; tests make a few calls in one order.", "anchors": ["knp/core-library/impl/projection.cpp: remove_postsynaptic_neuron_synapses", "knp/core-library/include/knp/core/projection.h: Projection"]}
{"id": "C176", "title": "Learning, step by step", "statement": "In every step of every run of a network on the single-threaded backend, a neuron of a trained population and the trained synapses that end in it become what one formula makes of the neuron, of these synapses before the step and of the impacts addressed to the neuron; no other neuron, no other population and no order of training takes part. It is in the spike message exactly if its own step says it spikes.", "quantifier": "every network of the supported types, every run, every step, every trained neuron", "why_tests_cant": "All runs and all networks: populations are trained one after the other on shared projections in the middle of a step; tests check a final weight.", "anchors": ["knp/backends/cpu/cpu-single-threaded-backend/impl/backend.cpp: _step, _init", "knp/backends/cpu/cpu-library/include/knp/backends/cpu-library/impl/populations/training/stdp.h: renormalize_resource"]}
{"id": "C177", "title": "Additive STDP, synapse by synapse", "statement": "After any history of steps, a synapse of an additive-STDP projection is what a rule of this synapse alone makes of the spikes that name its target neuron: two histories with room for tau_plus + tau_minus times, filled in the order of the messages; when both are full the weight grows by the worth of every pair and both are emptied. Hence populations registered for training only never change a weight by themselves, and if all are registered for training and spikes the two histories are always equal.", "quantifier": "every projection, synapse and history of steps and messages; every run of a network", "why_tests_cant": "All histories: the histories fill over many steps in an order given by the messages; a test shows one pair.", "anchors": ["knp/backends/cpu/cpu-library/include/knp/backends/cpu-library/impl/projections/training/stdp/additive_stdp.h: append_spike_times", "knp/backends/cpu/cpu-library/include/knp/backends/cpu-library/impl/projections/training/stdp/additive_stdp.h: stdp_delta_w"]}
{"id": "C178", "title": "A power reading is the average power since the previous one", "statement": "CPU::get_power on x86 tells the energy consumed since the last call that did not throw divided by the time passed since; a call throws exactly when energy metrics are unavailable, and then changes nothing.", "quantifier": "every outcome of programming the counters, every history of calls with any times, energies and availabilities", "why_tests_cant": "tests read the meter once on one machine; whether each reading refers to exactly the interval since the previous successful one is a property of histories, and the interval can be any length", "anchors": ["knp/backends/cpu/cpu-devices/impl/x86_cpu_power.cpp: get_power", "knp/backends/cpu/cpu-devices/impl/x86_cpu_power.cpp: check_pcm_status"]}
{"id": "C179", "title": "The AltAI MNIST example builds the network it describes and prepares it for inference", "statement": "construct_network<AltAILIF> builds exactly the described network (images to all input neurons trained from weight 0; labels reward their column, reset all input neurons and open the gate of their class; winners of a column excite the output neuron of its class; outputs close gates; gates excite their column), and prepare_network_for_inference<AltAILIF> leaves of any trained version exactly two layers, winner-take-all replaced by a direct projection, with weights whole numbers in [-255, 255] and one scale factor per layer.", "quantifier": "all numbers of classes, column sizes, image sizes, neuron parameters and weight limits that fit the machine; all first UIDs; all trained weights and thresholds", "why_tests_cant": "the example runs one size with one data set; that the picture holds for every size and that preparing scales each layer consistently after any training is a universal statement", "anchors": ["examples/mnist-learn/models/altai/construct_network.cpp: create_projections", "examples/mnist-learn/models/altai/construct_network.cpp: create_populations", "examples/mnist-learn/models/altai/prepare_network_for_inference.cpp: replace_wta_with_projections", "examples/mnist-learn/models/altai/prepare_network_for_inference.cpp: quantize_network"]}
{"id": "C180", "title": "A population of AltAI-LIF neurons never fails", "statement": "Feeding a population of AltAI-LIF neurons (plain or with synaptic-resource learning) with any number of steps of impact messages that address its neurons, carry only impact types the neuron knows and whose blocking values are 64-bit numbers never ends in an exception or undefined behaviour; the population keeps its size and answers in every step. Conversely an impact of unknown type or to a missing neuron always ends the run.", "quantifier": "all populations, all histories of messages of any length, all values and orders of impacts", "why_tests_cant": "The activity time is a counter whose sign and size depend on the whole history of blocking impacts; std::abs on it is undefined for exactly one value, which tests do not reach.", "anchors": ["knp/backends/cpu/cpu-library/include/knp/backends/cpu-library/impl/populations/altai/altai_impl.h: impact_neuron_impl", "knp/backends/cpu/cpu-library/include/knp/backends/cpu-library/impl/populations/altai/altai_impl.h: activity_time_"]}
{"id": "C181", "title": "A network whose neurons stay in safe states never fails", "statement": "If the parts of a network fit together as long as its neurons are in certain safe states, and neither steps nor training nor the impacts its synapses can carry lead out of these states, then no run of the network and no program on it on a CPU backend throws or has undefined behaviour, whatever the inputs and, on the multi-threaded backend, whatever the order its threads take. Every network that fits together in all states is such a network, and so is, on the single-threaded backend, the network of the MNIST example with AltAI neurons, whose gate neurons are blocked by weights of -10.", "quantifier": "all networks, learning or not, all programs, inputs, lengths of run", "why_tests_cant": "Whether an AltAI neuron takes a blocking impact depends on its activity time, hence on everything that happened before; no test covers all histories of a learning network.", "anchors": ["knp/backends/cpu/cpu-single-threaded-backend/impl/backend.cpp: _step, _initimpl/backend.cpp: _step", "knp/backends/cpu/cpu-library/include/knp/backends/cpu-library/impl/populations/altai/altai_impl.h: impact_neuron_impl", "examples/mnist-learn/models/altai/construct_network.cpp: construct_network", "knp/base-framework/impl/model_executor.cpp: start"]}
