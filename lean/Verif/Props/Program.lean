import Verif.Lemmas.ProgramWait
import Verif.Lemmas.ProgramUser
import Verif.Lemmas.ProgramThreads
import Verif.Props.LearnThreads
import Verif.Props.Io

/-!
# C116-C122: a whole program

What a program that loads a model, adds handlers and observers, runs it - also several times - and reads its output channels can
rely on.  A run is a list of `Item`s (`Verif/Model/Program.lean`); `Verif/Spec/Program.lean` says from them which messages are on
the bus during an iteration.
-/

namespace Knp.Props
open Knp Knp.Bus Knp.Spec Knp.Neurons Knp.Stdp Knp.Prog

section
variable {σ N B F : Type} [Field F] [LinearOrder F]

/-- A program and a run of it, on one of the CPU backends, in which nothing failed. -/
structure ProgRun (be : Prog.Backend F) (o : Ops F) (L : Layout) (c : Code σ F) (pops : List (Learn.Pop N B F)) (projs : List (Learn.Proj F))
    (inputs : List (UID × UID)) (u0 : σ) (acts : List (Act σ)) (s : Prog.State σ (Learn.Pop N B F) (Learn.Proj F) F)
    (tr : List (Item F)) : Prop where
  popUids : (pops.map Learn.Pop.uid).Nodup
  projUids : (projs.map (fun j => j.ident.uid)).Nodup
  queues : ∀ j ∈ projs, j.queue = []
  run : Prog.run (be.step o) L c (Prog.boot (Learn.machine o) L pops projs inputs u0) acts = .ok (s, tr)

variable {be : Prog.Backend F} {o : Ops F} {L : Layout} {c : Code σ F} {pops : List (Learn.Pop N B F)} {projs : List (Learn.Proj F)}
  {inputs : List (UID × UID)} {u0 : σ} {acts : List (Act σ)} {s : Prog.State σ (Learn.Pop N B F) (Learn.Proj F) F}
  {tr : List (Item F)}

private theorem facts (h : ProgRun be o L c pops projs inputs u0 acts s tr) : Explained L [] tr ∧
    ∃ envs sB env pending e0, Inv (be.step o) (Learn.machine o) (hearingOfWires (projs.map (Learn.machine (N := N) (B := B) o).wire)
      (inputs ++ L.handlerInputs)) L (Learn.boot (Learn.machine o) pops projs (inputs ++ L.handlerInputs) L.chans) s tr envs sB env
      pending e0 := by
  obtain ⟨e0, hb⟩ := Prog.boot_inv (be.step o) (m := Learn.machine o) L pops projs inputs u0 h.popUids h.projUids
  have hs : ∀ H, Serves (be.step o) (Learn.machine (N := N) (B := B) o) H L.chans := by
    intro H
    cases be with
    | single => exact serves_single (Learn.machine_keeps o) H L.chans
    | multi config sched => exact serves_threads (Learn.threads_keep o config) sched H L.chans
  have := Prog.run_spec (hs _) c acts hb h.run
  simpa using this

theorem prog_explained (h : ProgRun be o L c pops projs inputs u0 acts s tr) : Explained L [] tr := (facts h).1

theorem prog_outs_length (h : ProgRun be o L c pops projs inputs u0 acts s tr) : s.outs.length = L.outputs.length := by
  obtain ⟨_, _, _, _, _, _, hi⟩ := facts h
  exact hi.outsLen

/-! ## C119: the backend of the program -/

omit [Field F] [LinearOrder F] in
private theorem no_impacts {envs : List (List (Bus.Op F))} {L : Layout} (hf : ∀ en ∈ envs, ∀ op ∈ en, Foreign L.chans op)
    (hx : envs.map (extOf L.chans) = (externals L tr).map (fun l => l.map Message.spike)) :
    ∀ env ∈ envs, ∀ e im, Bus.Op.send e (.impact im) ∉ env := by
  intro en hen e im hop
  have hfe : 1 ≤ e ∧ e ≤ L.chans := hf en hen _ hop
  have hin : Message.impact im ∈ extOf L.chans en := by
    unfold extOf
    refine List.mem_flatMap.2 ⟨e - 1, List.mem_range.2 (by omega), ?_⟩
    unfold sentVia
    refine List.mem_filterMap.2 ⟨_, hop, ?_⟩
    simp only
    rw [if_pos (by omega)]
  have : extOf L.chans en ∈ envs.map (extOf L.chans) := List.mem_map_of_mem hen
  rw [hx] at this
  obtain ⟨l, _, hl⟩ := List.mem_map.1 this
  rw [← hl] at hin
  simp at hin

/-- C119. What the single-threaded backend of a program does is a run of the backend alone (C111-C115), in which only spike messages come from
outside: in every iteration what the input channels generated since the last one and what the handlers answered in the last one. -/
theorem C119_learn_run (h : ProgRun .single o L c pops projs inputs u0 acts s tr) :
    ∃ envs sB, LearnRun o pops projs (inputs ++ L.handlerInputs) L.chans envs sB ((iters tr).map (fun i => i.out)) ∧
      sB.pops = s.core.pops ∧ sB.projs = s.core.projs ∧
      envs.map (extOf L.chans) = (externals L tr).map (fun l => l.map Message.spike) ∧
      ∀ env ∈ envs, ∀ e im, Bus.Op.send e (.impact im) ∉ env := by
  obtain ⟨_, envs, sB, env, pending, e0, hi⟩ := facts h
  have hp := hi.past
  rw [show (Prog.Backend.single : Prog.Backend F).step o = Learn.stepSingle (Learn.machine o) from rfl, after_single] at hp
  exact ⟨envs, sB, ⟨h.popUids, h.projUids, h.queues, hi.foreigns, hp⟩, by rw [hi.core], by rw [hi.core], hi.exts,
    no_impacts hi.foreigns hi.exts⟩

/-- C119 on the multi-threaded backend: a run of that backend alone (C123-C126), with the same messages from outside, and the threads
doing what they did. -/
theorem C119_learn_run_threads {config : Sys.Config F} {sched : Nat → Learn.Sched}
    (h : ProgRun (.multi config sched) o L c pops projs inputs u0 acts s tr) :
    ∃ envs sB, LearnRunM o config pops projs (inputs ++ L.handlerInputs) L.chans envs sB ((iters tr).map (fun i => i.out)) ∧
      sB.pops = s.core.pops ∧ sB.projs = s.core.projs ∧
      envs.map (fun e => (extOf L.chans e.1, e.2)) = (externals L tr).mapIdx (fun t l => (l.map Message.spike, sched t)) ∧
      ∀ env ∈ envs, ∀ e im, Bus.Op.send e (.impact im) ∉ env.1 := by
  obtain ⟨_, envs, sB, env, pending, e0, hi⟩ := facts h
  have hp := after_threads envs hi.past
  refine ⟨scheduled sched 0 envs, sB, ⟨h.popUids, h.projUids, h.queues, ?_, hp⟩, by rw [hi.core], by rw [hi.core], ?_, ?_⟩
  · intro en hen
    refine hi.foreigns en.1 ?_
    have := List.mem_map_of_mem (f := Prod.fst) hen
    rwa [scheduled_fst] at this
  · rw [scheduled_map (extOf L.chans), hi.exts, scheduled_eq]
    apply List.ext_getElem?
    intro k
    simp only [List.getElem?_mapIdx, List.getElem?_map, Nat.zero_add]
    cases (externals L tr)[k]? <;> rfl
  · intro en hen
    refine no_impacts hi.foreigns hi.exts en.1 ?_
    have := List.mem_map_of_mem (f := Prod.fst) hen
    rwa [scheduled_fst] at this

private theorem step_count (h : ProgRun be o L c pops projs inputs u0 acts s tr) : s.core.step = (iters tr).length := by
  obtain ⟨_, _, _, _, _, _, hi⟩ := facts h
  exact hi.time

/-- C119, dataflow: the populations and projections at the end and everything the backend did in the iterations follow from what
generators and handlers returned. -/
theorem C119_dataflow (h : ProgRun .single o L c pops projs inputs u0 acts s tr) :
    learnRun (Learn.machine o) (learnHearing projs (inputs ++ L.handlerInputs)) 0 pops projs []
      ((externals L tr).map (fun l => l.map Message.spike)) = .ok ((s.core.pops, s.core.projs), (iters tr).map (fun i => i.out)) ∧
    s.core.step = (iters tr).length := by
  obtain ⟨envs, sB, hl, hp, hj, hx, _⟩ := C119_learn_run h
  refine ⟨?_, step_count h⟩
  · rw [← hx, ← C111_dataflow o pops projs (inputs ++ L.handlerInputs) L.chans hl.popUids hl.projUids envs hl.foreign, hl.run]
    simp only [learnVisible, hp, hj]

/-- C119, dataflow on the multi-threaded backend. -/
theorem C119_dataflow_threads {config : Sys.Config F} {sched : Nat → Learn.Sched}
    (h : ProgRun (.multi config sched) o L c pops projs inputs u0 acts s tr) :
    learnRunM (Learn.machine o) (Learn.threads o config) (learnHearing projs (inputs ++ L.handlerInputs)) 0 pops projs []
      ((externals L tr).mapIdx (fun t l => (l.map Message.spike, sched t))) =
        some (.ok ((s.core.pops, s.core.projs), (iters tr).map (fun i => i.out))) ∧
    s.core.step = (iters tr).length := by
  obtain ⟨envs, sB, hl, hp, hj, hx, _⟩ := C119_learn_run_threads h
  refine ⟨?_, step_count h⟩
  rw [← hx, ← C123_dataflow o config pops projs (inputs ++ L.handlerInputs) L.chans hl.popUids hl.projUids envs hl.foreign, hl.run]
  simp only [Option.map_some, learnVisible, hp, hj]

omit [Field F] [LinearOrder F] in
private theorem externals_at (L : Layout) (a b : List (Item F)) (i : Iter F) :
    (externals L (a ++ .iter i :: b)).getD (iters a).length [] = external L a i := by
  have hlen : ∀ (x y : List (Item F)), (externalsFrom L x y).length = (iters y).length := by
    intro x y
    induction y generalizing x with
    | nil => rfl
    | cons it y ih =>
      cases it with
      | iter i => simp [externalsFrom, iters, ih]
      | halt t fed => simp only [externalsFrom, ih]; simp [iters]
      | read n p q got => simp only [externalsFrom, ih]; simp [iters]
  unfold externals
  rw [externalsFrom_append, List.nil_append, List.getD_eq_getElem?_getD, List.getElem?_append_right (by rw [hlen]), hlen, Nat.sub_self]
  simp [externalsFrom]

theorem out_at (h : ProgRun be o L c pops projs inputs u0 acts s tr) {a b : List (Item F)} {i : Iter F}
    (ht : tr = a ++ .iter i :: b) : i.time = (iters a).length ∧
      ((iters tr).map (fun i => i.out))[(iters a).length]? = some i.out := by
  refine ⟨((facts h).1 a _ b ht).1, ?_⟩
  rw [ht, iters_append, List.map_append, List.getElem?_append_right (by simp)]
  simp [iters]

private theorem senders_at (h : ProgRun be o L c pops projs inputs u0 acts s tr) {a b : List (Item F)} {i : Iter F}
    (ht : tr = a ++ .iter i :: b) : (i.out.spikes.map (fun x => x.header.senderUid)).Sublist (pops.map Learn.Pop.uid) ∧
      ∀ x ∈ i.out.spikes, x.header.sendTime = i.time := by
  obtain ⟨hit, hat⟩ := out_at h ht
  rw [hit]
  cases be with
  | single =>
    refine ⟨Prog.learnRun_senders _ _ _ _ _ _ _ (C119_dataflow h).1 _ (List.mem_of_getElem? hat), ?_⟩
    intro x hx
    have h3 := Prog.learnRun_stamp _ _ _ _ _ _ _ (C119_dataflow h).1 _ _ hat x hx
    simpa using h3.1
  | multi config sched =>
    have h3 := Prog.learnRunM_senders _ _ _ _ _ _ _ (C119_dataflow_threads h).1 _ _ hat
    simpa using h3

theorem spikes_at (h : ProgRun be o L c pops projs inputs u0 acts s tr) {a b : List (Item F)} {i : Iter F}
    (ht : tr = a ++ .iter i :: b) :
    ∀ x ∈ i.out.spikes, x.header.sendTime = i.time ∧ x.header.senderUid ∈ pops.map Learn.Pop.uid := by
  obtain ⟨h1, h2⟩ := senders_at h ht
  exact fun x hx => ⟨h2 x hx, h1.subset (List.mem_map_of_mem hx)⟩

/-- C119, who speaks: in every iteration every population sends at most one spike message, in the order of the populations in the
backend; everything else on the bus carries the number of the iteration and comes from an input channel or a handler. -/
theorem C119_senders (h : ProgRun be o L c pops projs inputs u0 acts s tr) {a b : List (Item F)} {i : Iter F}
    (ht : tr = a ++ .iter i :: b) :
    (i.out.spikes.map (fun x => x.header.senderUid)).Sublist (pops.map Learn.Pop.uid) ∧
    ∀ x ∈ external L a i, x.header.sendTime = i.time ∧
      (x.header.senderUid ∈ L.inputs ∨ x.header.senderUid ∈ L.handlers.map (fun d => d.uid)) := by
  obtain ⟨hit, hat⟩ := out_at h ht
  refine ⟨(senders_at h ht).1, ?_⟩
  have hw := waits_run tr (facts h).1 a.length (by rw [ht]; simp)
  rw [ht, List.take_left' rfl, ← hit] at hw
  exact into_stamp hw

private theorem queues_ok (h : ProgRun be o L c pops projs inputs u0 acts s tr) : ∀ j ∈ projs, Learn.QueueOk j := by
  intro j hj e he
  rw [h.queues j hj] at he
  simp at he

omit [Field F] [LinearOrder F] in
private theorem spikes_of (l : List SpikeMessage) : Sys.spikesIn (l.map (Message.spike (F := F))) = l := Sys.spikesIn_map l

/-- What a projection gets in an iteration: what is on the bus from the senders it listens to - what came from outside first
on the single-threaded backend, what populations sent first on the multi-threaded one. -/
theorem heard_at (h : ProgRun be o L c pops projs inputs u0 acts s tr) {a b : List (Item F)} {i : Iter F}
    (ht : tr = a ++ .iter i :: b) (r : UID) (hr : r ∈ projs.map (fun j => j.ident.uid)) :
    heardBy i.out r = (match be with
      | .single => external L a i ++ i.out.spikes
      | .multi _ _ => i.out.spikes ++ external L a i).filter (fun m =>
      (learnHearing projs (inputs ++ L.handlerInputs)).spike r m.header.senderUid) := by
  obtain ⟨hit, hat⟩ := out_at h ht
  obtain ⟨hlt, hat'⟩ := List.getElem?_eq_some_iff.1 hat
  have hext := externals_at L a b i
  rw [← ht, List.getD_eq_getElem?_getD] at hext
  cases be with
  | single =>
    have h2 := (Learn.learnRun_ok _ _ _ _ _ _ _ (C119_dataflow h).1 h.projUids (queues_ok h)).2.1 _ hlt r hr
    rw [hat', List.getD_eq_getElem?_getD, List.getElem?_map] at h2
    cases hx : (externals L tr)[(iters a).length]? with
    | none =>
      rw [hx] at h2 hext
      simp only [Option.getD_none] at hext
      rw [h2, ← hext]; rfl
    | some l =>
      rw [hx] at h2 hext
      simp only [Option.map_some, Option.getD_some, spikes_of] at h2 hext
      rw [h2, hext]
  | multi config sched =>
    have h2 := (Learn.learnRunM_ok _ _ _ _ _ _ _ (C119_dataflow_threads h).1 h.projUids (queues_ok h)).2.1 _ hlt r hr
    rw [hat', List.getD_eq_getElem?_getD, List.getElem?_mapIdx] at h2
    cases hx : (externals L tr)[(iters a).length]? with
    | none =>
      rw [hx] at h2 hext
      simp only [Option.getD_none] at hext
      rw [h2, ← hext]; rfl
    | some l =>
      rw [hx] at h2 hext
      simp only [Option.map_some, Option.getD_some, spikes_of] at h2 hext
      rw [h2, hext]

/-- Messages of `u` that `r` gets in an iteration, if `u` is no population: all of them if `r` listens to `u`. -/
private theorem heard_of (h : ProgRun be o L c pops projs inputs u0 acts s tr) {a b : List (Item F)} {i : Iter F}
    (ht : tr = a ++ .iter i :: b) (r : UID) (hr : r ∈ projs.map (fun j => j.ident.uid)) (u : UID)
    (hu : u ∉ pops.map Learn.Pop.uid) :
    (heardBy i.out r).filter (fun x => decide (x.header.senderUid = u)) =
      if (learnHearing projs (inputs ++ L.handlerInputs)).spike r u = true then
        (external L a i).filter (fun x => decide (x.header.senderUid = u)) else [] := by
  rw [heard_at h ht r hr, List.filter_filter]
  have hz : i.out.spikes.filter (fun x => decide (x.header.senderUid = u) &&
      (learnHearing projs (inputs ++ L.handlerInputs)).spike r x.header.senderUid) = [] := by
    rw [List.filter_eq_nil_iff]
    intro x hx hc
    simp only [Bool.and_eq_true, decide_eq_true_eq] at hc
    exact hu (hc.1 ▸ (spikes_at h ht x hx).2)
  have hall : (match be with
      | .single => external L a i ++ i.out.spikes
      | .multi _ _ => i.out.spikes ++ external L a i).filter (fun x => decide (x.header.senderUid = u) &&
      (learnHearing projs (inputs ++ L.handlerInputs)).spike r x.header.senderUid) =
      (external L a i).filter (fun x => decide (x.header.senderUid = u) &&
      (learnHearing projs (inputs ++ L.handlerInputs)).spike r x.header.senderUid) := by
    cases be with
    | single => rw [List.filter_append, hz, List.append_nil]
    | multi config sched => rw [List.filter_append, hz, List.nil_append]
  rw [hall]
  split
  · rename_i hs
    apply List.filter_congr
    intro x _
    by_cases hx : x.header.senderUid = u
    · simp [hx, hs]
    · simp [hx]
  · rename_i hs
    rw [List.filter_eq_nil_iff]
    intro x _ hc
    simp only [Bool.and_eq_true, decide_eq_true_eq] at hc
    exact hs (hc.1 ▸ hc.2)

/-! ## C120: input channels -/

/-- C120. A projection connected to an input channel gets, in every iteration, exactly what the channel's generator returned for it -
with the number of the step, and nothing if there were no spikes - after what the generator returned in pre-step calls that
ended earlier runs since the last iteration.  Nothing is lost, doubled or late. -/
theorem C120_channel (h : ProgRun be o L c pops projs inputs u0 acts s tr) (hn : L.inputs.Nodup) {a mid b : List (Item F)}
    {i : Iter F} (ht : tr = a ++ mid ++ .iter i :: b) (hm : iters mid = []) (ha : a = [] ∨ ∃ a' i0, a = a' ++ [.iter i0])
    (k : Nat) (u : UID) (hk : L.inputs[k]? = some u) (hup : u ∉ pops.map Learn.Pop.uid) (huh : u ∉ L.handlers.map (·.uid))
    (r : UID) (hr : r ∈ projs.map (fun j => j.ident.uid)) (hru : (r, u) ∈ inputs) :
    (heardBy i.out r).filter (fun x => decide (x.header.senderUid = u)) = (mid ++ [Item.iter i]).flatMap (fedIn u k) ∧
      i.fed.length = L.inputs.length := by
  obtain ⟨he, _⟩ := facts h
  refine ⟨?_, (he _ _ _ ht).2.1⟩
  have hok := he _ _ _ ht
  rw [heard_of h ht r hr u hup, if_pos (by unfold learnHearing; simp [hru])]
  rw [ht] at he
  obtain ⟨h1, h2⟩ := into_channels (i := i) ha hm he
  unfold external Waiting.into
  rw [List.filter_append, by_one h1 hn k u _ hk (h2 k u hk)]
  have hz : (waiting L (a ++ mid)).handlers.flatten.filter (fun x => decide (x.header.senderUid = u)) = [] := by
    rcases ha with rfl | ⟨a', i0, rfl⟩
    · rw [List.nil_append, into_handlers_first hm]; rfl
    · have ho : ItemOk L a' (.iter i0) := by
        have := he a' (.iter i0) (mid ++ .iter i :: b) (by simp)
        simpa using this
      have hl : i0.handled.length = L.handlers.length := by
        have := congrArg List.length ho.2.2.1
        simpa using this
      have e : a' ++ [Item.iter i0] ++ mid = a' ++ .iter i0 :: mid := by simp
      rw [e]
      exact by_none (into_handlers (a := a') hm hl).1 u huh
  rw [hz, List.append_nil]

/-! ## C117: handlers -/

/-- C117, what a handler gets: in every iteration all spike messages of that iteration from its senders - populations, input channels
or handlers - once each. -/
theorem C117_handler_input (h : ProgRun be o L c pops projs inputs u0 acts s tr) {a b : List (Item F)} {i : Iter F}
    (ht : tr = a ++ .iter i :: b) (n : Nat) (d : Handler) (hd : L.handlers[n]? = some d) :
    ∃ ans, i.handled[n]? = some ((spikesDuring L a i).filter (fun x => decide (x.header.senderUid ∈ d.senders)), ans) := by
  have hok := ((facts h).1 _ _ _ ht).2.2.1
  rw [List.nil_append] at hok
  have := congrArg (fun l => l[n]?) hok
  simp only [List.getElem?_map, hd, Option.map_some] at this
  cases hx : i.handled[n]? with
  | none => rw [hx] at this; cases this
  | some x =>
    rw [hx] at this
    simp only [Option.map_some, Option.some.injEq] at this
    exact ⟨x.2, by rw [← this]⟩

/-- C117, what a handler's answer does: the projections it is connected to get it in the next iteration - exactly one step later and
with that step's number - and never again; a projection that is not connected to it in any way gets nothing of it. -/
theorem C117_handler_delay (h : ProgRun be o L c pops projs inputs u0 acts s tr) (hn : (L.handlers.map (·.uid)).Nodup)
    {a mid b : List (Item F)} {i i' : Iter F} (ht : tr = a ++ .iter i :: (mid ++ .iter i' :: b)) (hm : iters mid = [])
    (n : Nat) (d : Handler) (hd : L.handlers[n]? = some d) (got : List SpikeMessage) (ans : List Nat)
    (hans : i.handled[n]? = some (got, ans)) (hdi : d.uid ∉ L.inputs) (hdp : d.uid ∉ pops.map Learn.Pop.uid) :
    i'.time = i.time + 1 ∧
    (∀ r ∈ d.receivers, r ∈ projs.map (fun j => j.ident.uid) →
      (heardBy i'.out r).filter (fun x => decide (x.header.senderUid = d.uid)) = message d.uid i'.time ans) ∧
    (∀ j ∈ projs, j.ident.uid ∉ d.receivers → j.ident.pre ≠ d.uid → d.uid ∉ trainersOf j.syns → (j.ident.uid, d.uid) ∉ inputs →
      (heardBy i'.out j.ident.uid).filter (fun x => decide (x.header.senderUid = d.uid)) = []) := by
  obtain ⟨he, _⟩ := facts h
  have hok := he _ _ _ ht
  rw [List.nil_append] at hok
  have ht2 : tr = (a ++ [.iter i] ++ mid) ++ .iter i' :: b := by rw [ht]; simp
  have hok2 := he _ _ _ ht2
  have htime : i'.time = i.time + 1 := by
    rw [hok2.1, hok.1, List.nil_append, iters_append, hm, List.append_nil, iters_iter]; simp
  have hl : i.handled.length = L.handlers.length := by
    have := congrArg List.length hok.2.2.1
    simpa using this
  have hex : (external L (a ++ [.iter i] ++ mid) i').filter (fun x => decide (x.header.senderUid = d.uid)) = message d.uid i'.time ans := by
    rw [ht2] at he
    obtain ⟨h1, _⟩ := into_channels (i := i') (Or.inr ⟨a, i, rfl⟩) hm he
    obtain ⟨h3, h4⟩ := into_handlers (a := a) hm hl
    have e : a ++ [Item.iter i] ++ mid = a ++ .iter i :: mid := by simp
    unfold external Waiting.into
    rw [List.filter_append, by_none h1 _ hdi, List.nil_append, e,
      by_one h3 hn n d.uid _ (by rw [List.getElem?_map, hd]; rfl) (h4 n d (got, ans) hd hans), htime]
  refine ⟨htime, ?_, ?_⟩
  · intro r hr hrp
    rw [heard_of h ht2 r hrp d.uid hdp, if_pos, hex]
    unfold learnHearing
    simp only [decide_eq_true_eq]
    refine Or.inr (List.mem_append_right _ ?_)
    unfold Layout.handlerInputs
    exact List.mem_flatMap.2 ⟨d, List.mem_of_getElem? hd, List.mem_map.2 ⟨r, hr, rfl⟩⟩
  · intro j hj hjr hjp hjt hji
    rw [heard_of h ht2 j.ident.uid (List.mem_map_of_mem hj) d.uid hdp, if_neg]
    unfold learnHearing
    simp only [decide_eq_true_eq]
    rintro (⟨_, j2, hj2, e2, h2⟩ | h2)
    · have : j2 = j := List.inj_on_of_nodup_map h.projUids hj2 hj e2
      subst this
      rcases h2 with h2 | h2
      · exact hjp h2
      · exact hjt h2
    · rcases List.mem_append.1 h2 with h2 | h2
      · exact hji h2
      · unfold Layout.handlerInputs at h2
        obtain ⟨d2, hd2, hr2⟩ := List.mem_flatMap.1 h2
        obtain ⟨r2, hr2', e2⟩ := List.mem_map.1 hr2
        simp only [Prod.mk.injEq] at e2
        obtain ⟨rfl, e3⟩ := e2
        have : d2 = d := List.inj_on_of_nodup_map hn hd2 (List.mem_of_getElem? hd) e3
        subst this
        exact hjr hr2'

/-- C117, the beginning: nothing of a handler arrives in the first iteration. -/
theorem C117_handler_first (h : ProgRun be o L c pops projs inputs u0 acts s tr) {mid b : List (Item F)} {i : Iter F}
    (ht : tr = mid ++ .iter i :: b) (hm : iters mid = []) (d : Handler) (hdi : d.uid ∉ L.inputs)
    (hdp : d.uid ∉ pops.map Learn.Pop.uid) (r : UID) (hr : r ∈ projs.map (fun j => j.ident.uid)) :
    (heardBy i.out r).filter (fun x => decide (x.header.senderUid = d.uid)) = [] := by
  obtain ⟨he, _⟩ := facts h
  rw [heard_of h ht r hr d.uid hdp]
  split
  · have ht' : tr = [] ++ mid ++ .iter i :: b := by rw [ht]; simp
    rw [ht'] at he
    obtain ⟨h1, _⟩ := into_channels (i := i) (Or.inl rfl) hm he
    unfold external Waiting.into
    rw [List.nil_append] at h1
    rw [List.filter_append, by_none h1 _ hdi, into_handlers_first hm]
    rfl
  · rfl

/-! ## C118: observers -/

/-- C118. An observer is called once per iteration, with exactly the messages of its kind from its senders that are on the bus in that
iteration; it is not called by the pre-step call that ends a run. -/
theorem C118_observer (h : ProgRun be o L c pops projs inputs u0 acts s tr) {a b : List (Item F)} {i : Iter F}
    (ht : tr = a ++ .iter i :: b) : i.observed.length = L.observers.length ∧
    ∀ (n : Nat) (d : Observer), L.observers[n]? = some d → i.observed[n]? = some (
      (i.out.impacts.map Message.impact ++ (i.out.spikes ++ external L a i).map Message.spike).filter (fun x =>
        (x.kind == d.kind) && decide (x.sender ∈ d.senders))) := by
  have hok := ((facts h).1 _ _ _ ht).2.2.2
  rw [List.nil_append] at hok
  refine ⟨by rw [hok]; simp, ?_⟩
  intro n d hd
  rw [hok, List.getElem?_map, hd]
  rfl

/-! ## C116: output channels -/

/-- C116, reading: a read returns exactly what the channel holds with a time in the window. -/
theorem C116_read (h : ProgRun be o L c pops projs inputs u0 acts s tr) {a b : List (Item F)} {n x y : Nat}
    {got : List SpikeMessage} (ht : tr = a ++ .read n x y got :: b) :
    ∃ d, L.outputs[n]? = some d ∧
      got = (bufferOf L n d.2 a).filter (fun m => decide (x ≤ m.header.sendTime ∧ m.header.sendTime ≤ y)) := by
  have := (facts h).1 _ _ _ ht
  simpa [ItemOk] using this

/-- C116, contents: at any time an output channel holds, in order, all spike messages its senders have sent in the iterations so far,
except those read. -/
theorem C116_contents (h : ProgRun be o L c pops projs inputs u0 acts s tr) (n : Nat) (d : UID × List UID)
    (hd : L.outputs[n]? = some d) : s.outs[n]? = some ⟨bufferOf L n d.2 tr⟩ := by
  obtain ⟨_, _, _, _, _, _, hi⟩ := facts h
  exact hi.outs n d hd

omit [Field F] [LinearOrder F] in
private theorem arrivals_snoc (L : Layout) (xs : List UID) (a : List (Item F)) (i : Iter F) :
    arrivals L xs (a ++ [.iter i]) = arrivals L xs a ++ (spikesDuring L a i).filter (fun x => decide (x.header.senderUid ∈ xs)) := by
  have hlen : ∀ (x y : List (Item F)), (externalsFrom L x y).length = (iters y).length := by
    intro x y
    induction y generalizing x with
    | nil => rfl
    | cons it y ih =>
      cases it with
      | iter i => simp [externalsFrom, iters, ih]
      | halt t fed => simp only [externalsFrom, ih]; simp [iters]
      | read n p q got => simp only [externalsFrom, ih]; simp [iters]
  unfold arrivals
  rw [iters_iter, externals_iter, List.zipWith_append (by unfold externals; rw [hlen])]
  simp [spikesDuring]

/-- C116, conservation: what has been read from an output channel and what it still holds are together exactly what its senders sent -
nothing lost, nothing twice. -/
theorem C116_conservation (h : ProgRun be o L c pops projs inputs u0 acts s tr) (n : Nat) (d : UID × List UID)
    (hd : L.outputs[n]? = some d) (ch : Io.OutputChannel) (hch : s.outs[n]? = some ch) :
    (taken n tr ++ ch.buffer).Perm (arrivals L d.2 tr) := by
  rw [C116_contents h n d hd, Option.some.injEq] at hch
  subst hch
  have he := (facts h).1
  clear h
  induction tr using List.reverseRecOn with
  | nil => exact List.Perm.refl _
  | append_singleton tr it ih =>
    have hi := ih (explained_prefix he)
    have hok := he tr it [] rfl
    rw [List.nil_append] at hok
    rw [bufferOf_snoc]
    unfold taken at hi ⊢
    rw [List.flatMap_append]
    cases it with
    | iter i =>
      rw [arrivals_snoc]
      simp only [bufferAfter, List.flatMap_cons, List.flatMap_nil, List.append_nil]
      rw [← List.append_assoc]
      exact hi.append_right _
    | halt t fed =>
      have : arrivals L d.2 (tr ++ [.halt t fed]) = arrivals L d.2 tr := by
        unfold arrivals; rw [iters_halt, externals_halt]
      rw [this]
      simpa [bufferAfter] using hi
    | read m x y got =>
      have : arrivals L d.2 (tr ++ [.read m x y got]) = arrivals L d.2 tr := by
        unfold arrivals; rw [iters_read, externals_read]
      rw [this]
      obtain ⟨d', hd', hg⟩ := hok
      simp only [bufferAfter, List.flatMap_cons, List.flatMap_nil, List.append_nil]
      by_cases hmn : m = n
      · subst hmn
        rw [hd, Option.some.injEq] at hd'
        subst hd'
        rw [if_pos rfl, if_pos rfl, hg, List.append_assoc]
        refine List.Perm.trans ?_ hi
        exact List.Perm.append_left _ (List.filter_append_perm _ _)
      · rw [if_neg hmn, if_neg hmn]
        simpa using hi

private theorem buffer_sorted (h : ProgRun be o L c pops projs inputs u0 acts s tr) (n : Nat) (xs : List UID) : ∀ a b, tr = a ++ b →
    SortedBySend (bufferOf L n xs a) ∧ ∀ x ∈ bufferOf L n xs a, x.header.sendTime < (iters a).length := by
  intro a
  induction a using List.reverseRecOn with
  | nil => intro b _; exact ⟨List.Pairwise.nil, by simp [bufferOf, bufferFrom]⟩
  | append_singleton a it ih =>
    intro b hb
    obtain ⟨h1, h2⟩ := ih (it :: b) (by rw [hb]; simp)
    have ht : tr = a ++ it :: b := by rw [hb]; simp
    rw [bufferOf_snoc]
    cases it with
    | iter i =>
      obtain ⟨hit, _⟩ := out_at h ht
      have hw := waits_run tr (facts h).1 a.length (by rw [ht]; simp)
      rw [ht, List.take_left' rfl, ← hit] at hw
      have hst : ∀ x ∈ spikesDuring L a i, x.header.sendTime = i.time := by
        intro x hx
        rcases List.mem_append.1 hx with hx | hx
        · exact (spikes_at h ht x hx).1
        · exact (into_stamp hw x hx).1
      rw [iters_iter]
      simp only [bufferAfter]
      constructor
      · refine List.pairwise_append.2 ⟨h1, ?_, ?_⟩
        · rw [List.pairwise_iff_forall_sublist]
          intro x y hxy
          have hx := hst x (List.mem_of_mem_filter (hxy.subset (by simp)))
          have hy := hst y (List.mem_of_mem_filter (hxy.subset (by simp)))
          rw [hx, hy]
        · intro x hx y hy
          have := h2 x hx
          rw [hst y (List.mem_of_mem_filter hy), hit]
          omega
      · intro x hx
        simp only [List.length_append, List.length_cons, List.length_nil]
        rcases List.mem_append.1 hx with hx | hx
        · have := h2 x hx; omega
        · rw [hst x (List.mem_of_mem_filter hx), hit]; omega
    | halt t fed => rw [iters_halt]; exact ⟨h1, h2⟩
    | read m x y got =>
      rw [iters_read]
      simp only [bufferAfter]
      split
      · exact ⟨h1.filter _, fun z hz => h2 z (List.mem_of_mem_filter hz)⟩
      · exact ⟨h1, h2⟩

/-- C116, reading never fails: the messages of a channel are in the order of their times, so any window `start ≤ final` whose bounds
are not astronomical (C31) can be read at any time, and gives what `C116_read` says. -/
theorem C116_read_succeeds (h : ProgRun be o L c pops projs inputs u0 acts s tr) (n : Nat) (d : UID × List UID)
    (hd : L.outputs[n]? = some d) (start final maxSize : Nat) (hw : start ≤ final) (hm : start + final + 1 ≤ maxSize)
    (hm64 : start + final + 1 < two64) :
    ∃ s', Prog.act (be.step o) L c s (.read n start final maxSize) = .ok (s', .read n start final
      ((bufferOf L n d.2 tr).filter (fun m => decide (start ≤ m.header.sendTime ∧ m.header.sendTime ≤ final)))) := by
  have hs := (buffer_sorted h n d.2 tr [] (by simp)).1
  have hr := C31_read_window_partial maxSize ⟨bufferOf L n d.2 tr⟩ start final hs hw hm hm64
  simp only [Prog.act]
  rw [C116_contents h n d hd]
  simp only
  rw [hr]
  exact ⟨_, rfl⟩

/-- C116, the usual program: if an output channel listens to populations only and has not been read, it holds exactly what these
populations sent, iteration by iteration. -/
theorem C116_populations (h : ProgRun be o L c pops projs inputs u0 acts s tr) (n : Nat) (d : UID × List UID)
    (hd : L.outputs[n]? = some d) (hdi : ∀ u ∈ d.2, u ∉ L.inputs) (hdh : ∀ u ∈ d.2, u ∉ L.handlers.map (·.uid))
    (hread : ∀ it ∈ tr, ∀ x y got, it ≠ .read n x y got) :
    s.outs[n]? = some ⟨(iters tr).flatMap (fun i => i.out.spikes.filter (fun x => decide (x.header.senderUid ∈ d.2)))⟩ := by
  rw [C116_contents h n d hd]
  congr 2
  have key : ∀ a b, tr = a ++ b → bufferOf L n d.2 a =
      (iters a).flatMap (fun i => i.out.spikes.filter (fun x => decide (x.header.senderUid ∈ d.2))) := by
    intro a
    induction a using List.reverseRecOn with
    | nil => intro b _; rfl
    | append_singleton a it ih =>
      intro b hb
      have ht : tr = a ++ it :: b := by rw [hb]; simp
      rw [bufferOf_snoc]
      cases it with
      | iter i =>
        obtain ⟨hit, _⟩ := out_at h ht
        have hw := waits_run tr (facts h).1 a.length (by rw [ht]; simp)
        rw [ht, List.take_left' rfl, ← hit] at hw
        simp only [bufferAfter]
        rw [iters_iter, List.flatMap_append, ih _ ht]
        congr 1
        unfold spikesDuring
        rw [List.filter_append]
        have : (external L a i).filter (fun x => decide (x.header.senderUid ∈ d.2)) = [] := by
          rw [List.filter_eq_nil_iff]
          intro x hx hc
          simp only [decide_eq_true_eq] at hc
          rcases (into_stamp hw x hx).2 with h' | h'
          · exact hdi _ hc h'
          · exact hdh _ hc h'
        rw [this]
        simp
      | halt t fed => rw [iters_halt]; exact ih _ ht
      | read m x y got =>
        have hmn : m ≠ n := by
          rintro rfl
          exact hread (.read m x y got) (by rw [ht]; simp) x y got rfl
        rw [iters_read]
        simp only [bufferAfter, if_neg hmn]
        exact ih _ ht
  exact key tr [] (by simp)

/-! ## C121: splitting a run -/

/-- C121 (partial). What a network computes depends only on what generators and handlers returned in the iterations, not on how the
iterations are divided into runs, on the other functions of the program or on reads of output channels - if the generators
return nothing in the pre-step calls that end runs.  Missing: without this condition the property is false
(`C121_split_refuted`). -/
theorem C121_split_partial {σ' : Type} {c' : Code σ' F} {u0' : σ'} {acts' : List (Act σ')}
    {s' : Prog.State σ' (Learn.Pop N B F) (Learn.Proj F) F} {tr' : List (Item F)}
    (h : ProgRun be o L c pops projs inputs u0 acts s tr) (h' : ProgRun be o L c' pops projs inputs u0' acts' s' tr')
    (hfed : (iters tr).map (fun i => i.fed) = (iters tr').map (fun i => i.fed))
    (hans : (iters tr).map (fun i => i.handled.map (·.2)) = (iters tr').map (fun i => i.handled.map (·.2)))
    (hq : ∀ t fed, Item.halt t fed ∈ tr → ∀ g ∈ fed, g = []) (hq' : ∀ t fed, Item.halt t fed ∈ tr' → ∀ g ∈ fed, g = []) :
    (iters tr).map (fun i => i.out) = (iters tr').map (fun i => i.out) ∧ s.core.pops = s'.core.pops ∧ s.core.projs = s'.core.projs := by
  have e1 := (facts h).1
  have e2 := (facts h').1
  have hlen : (iters tr).length = (iters tr').length := by simpa using congrArg List.length hfed
  have htime : (iters tr).map (fun i => i.time) = (iters tr').map (fun i => i.time) := by
    rw [times_of tr e1, times_of tr' e2, hlen]
  have hall : (iters tr).map (fun i => (i.time, i.fed, i.handled.map (·.2))) =
      (iters tr').map (fun i => (i.time, i.fed, i.handled.map (·.2))) := by
    generalize iters tr = a, iters tr' = b at *
    clear e1 e2 h h' hq hq'
    induction a generalizing b with
    | nil => cases b with
      | nil => rfl
      | cons y b => simp at hlen
    | cons x a ih => cases b with
      | nil => simp at hlen
      | cons y b =>
        simp only [List.map_cons, List.cons.injEq] at *
        refine ⟨by rw [htime.1, hfed.1, hans.1], ih b hfed.2 hans.2 (by simpa using hlen) htime.2⟩
  have hx : externals L tr = externals L tr' := by
    rw [externals_quiet tr e1 hq, externals_quiet tr' e2 hq']
    exact externals_same _ _ [] [] rfl hall
  cases be with
  | single =>
    have d1 := (C119_dataflow h).1
    have d2 := (C119_dataflow h').1
    rw [hx, d2] at d1
    simp only [Outcome.ok.injEq, Prod.mk.injEq] at d1
    exact ⟨d1.2.symm, d1.1.1.symm, d1.1.2.symm⟩
  | multi config sched =>
    have d1 := (C119_dataflow_threads h).1
    have d2 := (C119_dataflow_threads h').1
    rw [hx, d2] at d1
    simp only [Option.some.injEq, Outcome.ok.injEq, Prod.mk.injEq] at d1
    exact ⟨d1.2.symm, d1.1.1.symm, d1.1.2.symm⟩

/-! ## C122: the program's own functions -/

/-- C122. In every iteration the generators are called in turn, once each, with the number of the step; then the predicate; after the
step the handlers in turn with what they got and the observers in turn with what they got; in the pre-step call that ends a run
the generators and the predicate.  Every call sees the state the call before left, and what generators and handlers return is
what is sent (C117, C120). -/
theorem C122_user_code (h : ProgRun be o L c pops projs inputs u0 acts s tr) : UserRun L c u0 acts tr s.user :=
  Prog.run_user _ L c acts _ _ _ h.run

/-! ## Starting -/

omit [Field F] [LinearOrder F] in
private theorem step_up {P J : Type} {m : Learn.Machine P J F} {s s' : Learn.State P J F} {out : Sys.StepOut F}
    (h : Learn.stepSingle m s = .ok (s', out)) : s'.step = s.step + 1 := by
  unfold Learn.stepSingle at h
  simp only at h
  split at h
  · cases h
  · split at h
    · cases h
    · cases h
    · split at h
      · cases h
      · simp only [Outcome.ok.injEq, Prod.mk.injEq] at h
        rw [← h.1]

private theorem step_next {be : Prog.Backend F} {o : Ops F} {s s' : Learn.State (Learn.Pop N B F) (Learn.Proj F) F} {out : Sys.StepOut F}
    (h : be.step o s = .ok (s', out)) : s'.step = s.step + 1 := by
  cases be with
  | single => exact step_up h
  | multi config sched => exact stepMulti_step (stepThreads_ok h)

/-- C119, runs: `ModelExecutor::start`, when it returns, has done some iterations in which the predicate said `true` and then one
pre-step call in which it said `false`, for consecutive step numbers; so everything above holds for programs that call
`start` any number of times. -/
theorem C119_start (be : Prog.Backend F) (o : Ops F) (pred : σ → Nat → Bool × σ) : ∀ (fuel : Nat)
    (s s' : Prog.State σ (Learn.Pop N B F) (Learn.Proj F) F) (its : List (Item F)),
    Prog.start (be.step o) L c pred fuel s = some (.ok (s', its)) →
    ∃ (n : Nat) (is : List (Iter F)) (fed : List (List Nat)), its = is.map .iter ++ [.halt (s.core.step + n) fed] ∧ is.length = n ∧
      Prog.run (be.step o) L c s ((List.range n).map (fun k => .iterate (fun u => (pred u (s.core.step + k)).2)) ++
        [.halt (fun u => (pred u (s.core.step + n)).2)]) = .ok (s', its) ∧
      (∀ f : Nat → Bool, (∀ u t, (pred u t).1 = f t) → f (s.core.step + n) = false ∧ ∀ k < n, f (s.core.step + k) = true) := by
  intro fuel
  induction fuel with
  | zero => intro s s' its h; simp [Prog.start] at h
  | succ fuel ih =>
    intro s s' its h
    unfold Prog.start at h
    simp only at h
    split at h
    · rename_i hp
      have hpre : (preStep L c s).1.core.step = s.core.step := rfl
      cases hs : be.step o (preStep L c s).1.core with
      | throw w => rw [hs] at h; cases h
      | ub => rw [hs] at h; cases h
      | ok x =>
        obtain ⟨core, out⟩ := x
        have hup := step_next hs
        rw [hpre] at hup
        rw [hs] at h
        simp only at h
        cases hr : Prog.start (be.step o) L c pred fuel (postStep L c ⟨core, (preStep L c s).1.outs,
            (pred (preStep L c s).1.user s.core.step).2⟩).1 with
        | none => rw [hr] at h; cases h
        | some y =>
          cases y with
          | throw w => rw [hr] at h; cases h
          | ub => rw [hr] at h; cases h
          | ok z =>
            obtain ⟨s2, is2⟩ := z
            rw [hr] at h
            simp only [Option.some.injEq, Outcome.ok.injEq, Prod.mk.injEq] at h
            obtain ⟨rfl, rfl⟩ := h
            obtain ⟨n, is, fed, e1, e2, e3, e4⟩ := ih _ _ _ hr
            have hst : (postStep L c ⟨core, (preStep L c s).1.outs, (pred (preStep L c s).1.user s.core.step).2⟩).1.core.step =
              s.core.step + 1 := hup
            rw [hst] at e1 e3 e4
            refine ⟨n + 1, ⟨s.core.step, (preStep L c s).2, out,
              (postStep L c ⟨core, (preStep L c s).1.outs, (pred (preStep L c s).1.user s.core.step).2⟩).2.1,
              (postStep L c ⟨core, (preStep L c s).1.outs, (pred (preStep L c s).1.user s.core.step).2⟩).2.2⟩ :: is, fed,
              ?_, ?_, ?_, ?_⟩
            · rw [e1, List.map_cons, List.cons_append, Nat.add_assoc, Nat.add_comm 1]
            · rw [List.length_cons, e2]
            · rw [List.range_succ_eq_map, List.map_cons, List.cons_append]
              unfold Prog.run
              simp only [Prog.act, Prog.iterate, Nat.add_zero, hs]
              have e3' : Prog.run (be.step o) L c (postStep L c ⟨core, (preStep L c s).1.outs, (pred (preStep L c s).1.user s.core.step).2⟩).1
                  (((List.range n).map Nat.succ).map (fun k => Act.iterate (fun u => (pred u (s.core.step + k)).2)) ++
                    [.halt (fun u => (pred u (s.core.step + (n + 1))).2)]) = .ok (s2, is2) := by
                rw [List.map_map]
                have hc : ∀ k, s.core.step + 1 + k = s.core.step + (k + 1) := by intro k; omega
                simp only [hc] at e3
                exact e3
              rw [e3']
            · intro f hf
              obtain ⟨g1, g2⟩ := e4 f hf
              refine ⟨by rw [← g1]; congr 1; omega, ?_⟩
              intro k hk
              cases k with
              | zero => rw [Nat.add_zero, ← hf (preStep L c s).1.user]; exact hp
              | succ k =>
                have := g2 k (by omega)
                rw [← this]; congr 1; omega
    · rename_i hp
      simp only [Option.some.injEq, Outcome.ok.injEq, Prod.mk.injEq] at h
      obtain ⟨rfl, rfl⟩ := h
      refine ⟨0, [], (preStep L c s).2, rfl, rfl, rfl, ?_⟩
      intro f hf
      refine ⟨?_, fun k hk => absurd hk (by omega)⟩
      rw [Nat.add_zero, ← hf (preStep L c s).1.user]
      simpa using hp

/-- C119, the converse: if the iterations for which the predicate says `true` and the pre-step call in which it first says `false` do not
fail, `ModelExecutor::start` returns with exactly them. -/
theorem C119_start_returns (be : Prog.Backend F) (o : Ops F) (pred : σ → Nat → Bool × σ) : ∀ (n : Nat)
    (s s' : Prog.State σ (Learn.Pop N B F) (Learn.Proj F) F) (its : List (Item F)),
    Prog.run (be.step o) L c s ((List.range n).map (fun k => .iterate (fun u => (pred u (s.core.step + k)).2)) ++
      [.halt (fun u => (pred u (s.core.step + n)).2)]) = .ok (s', its) →
    (∀ k < n, ∀ u, (pred u (s.core.step + k)).1 = true) → (∀ u, (pred u (s.core.step + n)).1 = false) →
    Prog.start (be.step o) L c pred (n + 1) s = some (.ok (s', its)) := by
  intro n
  induction n with
  | zero =>
    intro s s' its h _ hf
    unfold Prog.start
    simp only
    rw [if_neg (by rw [show s.core.step = s.core.step + 0 from rfl, hf]; decide)]
    simp only [List.range_zero, List.map_nil, List.nil_append, Prog.run, Prog.act] at h
    simp only [Outcome.ok.injEq, Prod.mk.injEq] at h
    obtain ⟨rfl, rfl⟩ := h
    rfl
  | succ n ih =>
    intro s s' its h ht hf
    rw [List.range_succ_eq_map, List.map_cons, List.cons_append] at h
    unfold Prog.run at h
    simp only [Prog.act, Prog.iterate, Nat.add_zero] at h
    unfold Prog.start
    simp only
    rw [if_pos (by rw [show s.core.step = s.core.step + 0 from rfl]; exact ht 0 (by omega) _)]
    cases hs : be.step o (preStep L c s).1.core with
    | throw w => rw [hs] at h; cases h
    | ub => rw [hs] at h; cases h
    | ok x =>
      obtain ⟨core, out⟩ := x
      have hup := step_next hs
      rw [hs] at h
      simp only at h ⊢
      generalize hb : postStep L c ⟨core, (preStep L c s).1.outs, (pred (preStep L c s).1.user s.core.step).2⟩ = b at h ⊢
      have hst : b.1.core.step = s.core.step + 1 := by rw [← hb]; exact hup
      have hc : ∀ k, s.core.step + (k + 1) = b.1.core.step + k := by intro k; rw [hst]; omega
      rw [List.map_map] at h
      cases hr : Prog.run (be.step o) L c b.1 ((List.range n).map ((fun k => Act.iterate (fun u => (pred u (s.core.step + k)).2)) ∘ Nat.succ) ++
          [.halt (fun u => (pred u (s.core.step + (n + 1))).2)]) with
      | throw w => rw [hr] at h; cases h
      | ub => rw [hr] at h; cases h
      | ok z =>
        obtain ⟨s2, is2⟩ := z
        rw [hr] at h
        simp only [Outcome.ok.injEq, Prod.mk.injEq] at h
        obtain ⟨rfl, rfl⟩ := h
        simp only [Function.comp_def, Nat.succ_eq_add_one, hc] at hr
        rw [ih b.1 s2 is2 hr (fun k hk u => by rw [← hc]; exact ht (k + 1) (by omega) u) (fun u => by rw [← hc]; exact hf u)]

end

/-! ## An example

The learning network of `LearnEx` in a program: input channel 50 (into projection 10), output channels 60 (populations 1 and 2) and
61 (population 2, channel 50, handler 70), handler 70 (from population 2 to projection 10), an observer of projection 10's
impacts.  The program runs three steps, reads channel 60, runs again for two steps, reads channel 61. -/
namespace ProgEx

/-- The endpoints. -/
def L : Layout := ⟨[50], [(60, [1, 2]), (61, [2, 50, 70])], [⟨70, [2], [10]⟩], [⟨80, .impact, [10]⟩]⟩
/-- The generator spikes in steps 0, 1 and 3; the handler answers with neuron 1 when something came; the observer counts. -/
def c : Code Nat ℚ where
  gen _ u t := (if t < 2 then [0, 1] else if t = 3 then [1] else [], u)
  handle _ u ms := (if ms.isEmpty then [] else [1], u)
  observe _ u ms := u + ms.length
/-- What the program does. -/
def acts : List (Act Nat) :=
  [.iterate id, .iterate id, .iterate id, .halt id, .read 0 0 1 100, .iterate id, .iterate id, .halt id, .read 1 1 3 100]
/-- The run. -/
def result := Prog.run (Learn.stepSingle (Learn.machine StdpEx.o)) L c (Prog.boot (Learn.machine StdpEx.o) L LearnEx.pops LearnEx.projs [(10, 50)] 0) acts
/-- What can be seen of it. -/
def trace : Outcome (Prog.State Nat (Learn.Pop (Lif ℚ) (Blifat ℚ) ℚ) (Learn.Proj ℚ) ℚ × List (Item ℚ)) → List (Item ℚ)
  | .ok r => r.2
  | _ => []
/-- The output channels at the end. -/
def outs : Outcome (Prog.State Nat (Learn.Pop (Lif ℚ) (Blifat ℚ) ℚ) (Learn.Proj ℚ) ℚ × List (Item ℚ)) → List (List SpikeMessage)
  | .ok r => r.1.outs.map (·.buffer)
  | _ => []

/-- The run satisfies `ProgRun`. -/
theorem run : ∃ s, ProgRun .single StdpEx.o L c LearnEx.pops LearnEx.projs [(10, 50)] 0 acts s (trace result) := by
  have hok : result.isOk = true := by decide +kernel
  cases hr : result with
  | throw w => rw [hr] at hok; cases hok
  | ub => rw [hr] at hok; cases hok
  | ok x =>
    refine ⟨x.1, by decide +kernel, by decide +kernel, ?_, hr⟩
    intro j hj
    simp only [LearnEx.projs, List.mem_cons, List.not_mem_nil, or_false] at hj
    rcases hj with rfl | rfl | rfl | rfl <;> rfl

/-- C120, C117: what projection 10 gets in every iteration - in step 3, after the restart, the channel's spikes of that step twice. -/
example : (iters (trace result)).map (fun i => (heardBy i.out 10).map (fun m => (m.header.senderUid, m.header.sendTime, m.neuronIndexes))) =
    [[(50, 0, [0, 1])], [(50, 1, [0, 1])], [(70, 2, [1])], [(50, 3, [1]), (50, 3, [1]), (70, 3, [1])], [(70, 4, [1])]] := by
  decide +kernel
/-- C117: what the handler got and answered. -/
example : (iters (trace result)).map (fun i => i.handled.map (fun x => (x.1.map (fun m => m.header.sendTime), x.2))) =
    [[([], [])], [([1], [1])], [([2], [1])], [([3], [1])], [([4], [1])]] := by decide +kernel
/-- C118: the observer got projection 10's message in every iteration. -/
example : (iters (trace result)).map (fun i => i.observed.map (fun x => x.map (fun m => (m.kind, m.sender)))) =
    [[[(.impact, 10)]], [[(.impact, 10)]], [[(.impact, 10)]], [[(.impact, 10)]], [[(.impact, 10)]]] := by decide +kernel
/-- C116: what was read and what is left. -/
example : (taken 0 (trace result)).map (fun m => (m.header.senderUid, m.header.sendTime)) = [(2, 1)] ∧
    (taken 1 (trace result)).map (fun m => (m.header.senderUid, m.header.sendTime)) =
      [(2, 1), (50, 1), (2, 2), (70, 2), (2, 3), (50, 3), (50, 3), (70, 3)] ∧
    (outs result).map (fun l => l.map (fun m => (m.header.senderUid, m.header.sendTime))) =
      [[(2, 2), (1, 3), (2, 3), (1, 4), (2, 4)], [(50, 0), (2, 4), (70, 4)]] := by decide +kernel
/-- The hypotheses on UIDs. -/
example : L.inputs.Nodup ∧ (L.handlers.map (·.uid)).Nodup ∧ 50 ∉ LearnEx.pops.map Learn.Pop.uid ∧ 70 ∉ LearnEx.pops.map Learn.Pop.uid ∧
    50 ∉ L.handlers.map (·.uid) ∧ 70 ∉ L.inputs ∧ (∀ u ∈ ([1, 2] : List UID), u ∉ L.inputs ∧ u ∉ L.handlers.map (·.uid)) := by
  decide +kernel
/-- C119: two calls of `start` are such a list of actions. -/
example : ((Prog.start (Learn.stepSingle (Learn.machine StdpEx.o)) L c (fun u t => (decide (t < 3), u)) 9
      (Prog.boot (Learn.machine StdpEx.o) L LearnEx.pops LearnEx.projs [(10, 50)] 0)).map trace) =
    some ((trace result).take 4) := by decide +kernel

/-- C122: functions that count: the generator returns the number of calls so far, the handler too; the observer and the predicate
count as well. -/
def counting : Code Nat ℚ where
  gen _ u t := ([u, t], u + 1)
  handle _ u _ := ([u], u + 1)
  observe _ u _ := u + 1
example : (match Prog.run (Learn.stepSingle (Learn.machine StdpEx.o)) L counting
      (Prog.boot (Learn.machine StdpEx.o) L LearnEx.pops LearnEx.projs [(10, 50)] 0) [.iterate (· + 1), .iterate (· + 1), .halt (· + 1)] with
    | .ok r => ((iters r.2).map (fun i => (i.fed, i.handled.map (·.2))), r.1.user)
    | _ => ([], 0)) = ([([[0, 0]], [[2]]), ([[4, 1]], [[6]])], 10) := by decide +kernel

/-- The same program without handler, run for five steps at once (`true`) or for three and then for two. -/
def acts5 (once : Bool) : List (Act Nat) :=
  if once then [.iterate id, .iterate id, .iterate id, .iterate id, .iterate id]
  else [.iterate id, .iterate id, .iterate id, .halt id, .iterate id, .iterate id]
/-- Its endpoints. -/
def L0 : Layout := ⟨[50], [(60, [1, 2])], [], []⟩
/-- Its run. -/
def result5 (once : Bool) := Prog.run (Learn.stepSingle (Learn.machine StdpEx.o)) L0 c
  (Prog.boot (Learn.machine StdpEx.o) L0 LearnEx.pops LearnEx.projs [(10, 50)] 0) (acts5 once)

theorem run5 (once : Bool) : ∃ s, ProgRun .single StdpEx.o L0 c LearnEx.pops LearnEx.projs [(10, 50)] 0 (acts5 once) s (trace (result5 once)) := by
  have hok : (result5 once).isOk = true := by cases once <;> decide +kernel
  cases hr : result5 once with
  | throw w => rw [hr] at hok; cases hok
  | ub => rw [hr] at hok; cases hok
  | ok x =>
    refine ⟨x.1, by decide +kernel, by decide +kernel, ?_, hr⟩
    intro j hj
    simp only [LearnEx.projs, List.mem_cons, List.not_mem_nil, or_false] at hj
    rcases hj with rfl | rfl | rfl | rfl <;> rfl

end ProgEx

/-- C121 is false in general: the pre-step call that ends a run feeds the inputs of the next step, and the next run feeds them again.
The same program with the same generators - a function of the step - gives different results for `start` to step 3 and then to
step 5 than for `start` to step 5 (projection 10 gets the channel's spikes of step 3 twice). -/
theorem C121_split_refuted : ∃ s tr s' tr',
    ProgRun .single StdpEx.o ProgEx.L0 ProgEx.c LearnEx.pops LearnEx.projs [(10, 50)] 0 (ProgEx.acts5 true) s tr ∧
    ProgRun .single StdpEx.o ProgEx.L0 ProgEx.c LearnEx.pops LearnEx.projs [(10, 50)] 0 (ProgEx.acts5 false) s' tr' ∧
    (iters tr).map (fun i => i.fed) = (iters tr').map (fun i => i.fed) ∧
    (iters tr).map (fun i => i.out.impacts) ≠ (iters tr').map (fun i => i.out.impacts) := by
  obtain ⟨s, h⟩ := ProgEx.run5 true
  obtain ⟨s', h'⟩ := ProgEx.run5 false
  exact ⟨s, _, s', _, h, h', by decide +kernel, by decide +kernel⟩

/-- `C121_split_partial` applies when the generator is silent at the end of the first run. -/
example : (∀ t fed, Item.halt t fed ∈ (ProgEx.trace (Prog.run (Learn.stepSingle (Learn.machine StdpEx.o)) ProgEx.L0 ProgEx.c
      (Prog.boot (Learn.machine StdpEx.o) ProgEx.L0 LearnEx.pops LearnEx.projs [(10, 50)] 0)
      [.iterate id, .iterate id, .halt id, .iterate id])) → ∀ g ∈ fed, g = []) ∧
    (iters (ProgEx.trace (Prog.run (Learn.stepSingle (Learn.machine StdpEx.o)) ProgEx.L0 ProgEx.c
      (Prog.boot (Learn.machine StdpEx.o) ProgEx.L0 LearnEx.pops LearnEx.projs [(10, 50)] 0)
      [.iterate id, .iterate id, .halt id, .iterate id]))).length = 3 := by
  constructor
  · intro t fed h
    have hm : ∀ it ∈ (ProgEx.trace (Prog.run (Learn.stepSingle (Learn.machine StdpEx.o)) ProgEx.L0 ProgEx.c
      (Prog.boot (Learn.machine StdpEx.o) ProgEx.L0 LearnEx.pops LearnEx.projs [(10, 50)] 0)
      [.iterate id, .iterate id, .halt id, .iterate id])), (match it with | .halt _ fed => fed.all (·.isEmpty) | _ => true) = true := by
      decide +kernel
    have := hm _ h
    simp only [List.all_eq_true, List.isEmpty_iff] at this
    exact this
  · decide +kernel

end Knp.Props
