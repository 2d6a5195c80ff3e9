import Verif.Lemmas.CudaFlow
import Verif.Props.System

/-! # C133, C135–C141: a network on the CUDA backend -/

namespace Knp.Props
open Knp Knp.Bus Knp.Spec Knp.Neurons

variable {F : Type}

/-- A run of the CUDA backend that ends normally: a network on the device, input projections connected to their channels, and any
calls of the rest of the program on `chans` other endpoints; `envs` also has the orders in which threads run.  No channel is called like an
entity of the network, neuron numbers fit 32 bits. -/
structure CudaRun [Arith F] (pops : List (Cuda.Pop F)) (projs : List (Delta.Ident × List (Delta.Syn F))) (inputs : List (UID × UID))
    (chans : Nat) (envs : List (List (Op F) × Cuda.Sched)) (s : Cuda.State F) (os : List (Cuda.Out F)) : Prop where
  apart : Apart pops projs inputs
  fits : ∀ j ∈ projs, Fits j.2
  foreign : ∀ x ∈ envs, ∀ op ∈ x.1, Foreign chans op
  short : envs.length ≤ two64
  ok : Cuda.run (Cuda.boot pops projs inputs chans) envs = .ok (s, os)

namespace CudaEx

/-- A neuron with threshold 5. -/
def neuron : Blifat Int := ⟨0, 5, 0, 0, 1, 0, 0, 0, 0, 0, 0, 0, 0, 1, 0, 0, 0, 0, 0, 0, -100, i64max, 0⟩

/-- Threads in ascending order. -/
def sc : Cuda.Sched := ⟨[], fun _ => [], fun _ => []⟩

/-- Threads in descending order (for two elements). -/
def sc' : Cuda.Sched := ⟨[], fun _ => [1, 0], fun _ => []⟩

/-- A step before which channel `c` sends spikes of neuron 0. -/
def fire (c : UID) (t : Nat) (sc : Cuda.Sched) : List (Op Int) × Cuda.Sched := ([.send 1 (.spike ⟨⟨c, t⟩, [0]⟩)], sc)

/-- One neuron. -/
def pops : List (Cuda.Pop Int) := [⟨10, [neuron]⟩]

/-- An input projection into it. -/
def projs : List (Delta.Ident × List (Delta.Syn Int)) := [(⟨20, 0, 10, false⟩, [⟨0, 0, 6, 1, .excitatory⟩])]

/-- The projection is connected to channel 30. -/
def inputs : List (UID × UID) := [(20, 30)]

/-- A second input projection, connected to the same channel. -/
def projs2 : List (Delta.Ident × List (Delta.Syn Int)) := projs ++ [(⟨21, 0, 10, false⟩, [⟨0, 0, 2, 1, .inhibitoryCurrent⟩])]

/-- Both projections are connected to channel 30. -/
def inputs2 : List (UID × UID) := [(20, 30), (21, 30)]

/-- What the steps of a run did. -/
def outs (r : Outcome (Cuda.State Int × List (Cuda.Out Int))) : List (Cuda.Out Int) :=
  match r with
  | .ok x => x.2
  | _ => []

theorem run_outs {r : Outcome (Cuda.State Int × List (Cuda.Out Int))} (h : r.isOk = true) : ∃ s, r = .ok (s, outs r) := by
  cases r with
  | ok x => exact ⟨x.1, rfl⟩
  | throw w => cases h
  | ub => cases h

theorem fire_foreign (c : UID) (t : Nat) (s : Cuda.Sched) : ∀ op ∈ (fire c t s).1, Foreign 1 op := by
  intro op hop
  simp only [fire, List.mem_singleton] at hop
  rw [hop]
  exact ⟨Nat.le_refl _, Nat.le_refl _⟩

theorem apart : Apart pops projs inputs := by
  intro i hi
  simp only [inputs, List.mem_singleton] at hi
  subst hi
  decide

theorem apart2 : Apart pops projs2 inputs2 := by
  intro i hi
  simp only [inputs2, List.mem_cons, List.not_mem_nil, or_false] at hi
  rcases hi with rfl | rfl <;> decide

theorem fits2 : ∀ j ∈ projs2, Fits j.2 := by
  intro j hj
  simp only [projs2, projs, List.cons_append, List.nil_append, List.mem_cons, List.not_mem_nil, or_false] at hj
  rcases hj with rfl | rfl <;> (intro s hs; simp only [List.mem_singleton] at hs; subst hs; decide)

theorem fits : ∀ j ∈ projs, Fits j.2 := fun j hj => fits2 j (by unfold projs2; simp [hj])

/-- Three steps, a spike of the channel before the first one. -/
def envs : List (List (Op Int) × Cuda.Sched) := [fire 30 0 sc, ([], sc), ([], sc)]

theorem foreign : ∀ x ∈ envs, ∀ op ∈ x.1, Foreign 1 op := by
  intro x hx
  simp only [envs, List.mem_cons, List.not_mem_nil, or_false] at hx
  rcases hx with rfl | rfl | rfl
  · exact fire_foreign _ _ _
  · simp
  · simp

/-- The run. -/
theorem theRun : ∃ s, CudaRun pops projs inputs 1 envs s (outs (Cuda.run (Cuda.boot pops projs inputs 1) envs)) := by
  obtain ⟨s, hs⟩ := run_outs (r := Cuda.run (Cuda.boot pops projs inputs 1) envs) (by decide +kernel)
  exact ⟨s, apart, fits, foreign, by decide, hs⟩

end CudaEx

variable [Arith F] {pops : List (Cuda.Pop F)} {projs : List (Delta.Ident × List (Delta.Syn F))} {inputs : List (UID × UID)}
  {chans : Nat} {envs : List (List (Op F) × Cuda.Sched)} {s : Cuda.State F} {os : List (Cuda.Out F)}

/-- The final state of a run and the dataflow. -/
private theorem flow (h : CudaRun pops projs inputs chans envs s os) : ∃ projs' : List (Sys.ProjSt F),
    (∃ pending' e', Cuda.Btw (hearing projs inputs) inputs chans s projs' pending' e') ∧ s.step = envs.length ∧
    DevRun (hearing projs inputs) inputs 0 pops (projs.map cpuProj) [] (envs.map (fun x => extOf chans x.1)) os (s.dev.pops, projs') := by
  obtain ⟨e0, hb⟩ := Cuda.boot_btw pops projs inputs chans h.apart h.fits
  have hst : (Cuda.boot pops projs inputs chans).step = 0 := rfl
  obtain ⟨_, h2⟩ := Cuda.run_spec envs _ _ _ e0 hb (by rw [hst, Nat.zero_add]; exact h.short) h.foreign
  obtain ⟨projs', p1, p2, p3⟩ := h2 s os h.ok
  exact ⟨projs', p1, by rw [p2, hst, Nat.zero_add], p3⟩

/-! ## C140: the dataflow -/

/-- C140. A run of the CUDA backend computes the dataflow `DevRun`, for every order in which threads run and hash tables are traversed: in
every step every population is given exactly the impact messages the projections into it sent in the step before, and every projection exactly
the spike messages of its source population in this step and of its channels (each as often as entities are connected to the channel,
C138); the order is not determined.  Projections compute what the projections of the single-threaded backend compute. -/
theorem C140_dataflow (h : CudaRun pops projs inputs chans envs s os) : s.step = envs.length ∧ ∃ projs' : List (Sys.ProjSt F),
    List.Forall₂ (fun (dj : Cuda.Proj F) (sj : Sys.ProjSt F) => dj.ident.uid = sj.ident.uid ∧ sj.proj = ascending dj.synapses ∧
      dj.queue = sj.queue.map (fun e => stamp e.1 e.2)) s.dev.projs projs' ∧
    DevRun (hearing projs inputs) inputs 0 pops (projs.map cpuProj) [] (envs.map (fun x => extOf chans x.1)) os (s.dev.pops, projs') := by
  obtain ⟨projs', ⟨_, _, p1⟩, p2, p3⟩ := flow h
  exact ⟨p2, projs', p1.match_.imp (fun a b hm => ⟨hm.uid, hm.proj, hm.queue⟩), p3⟩

/-- A run in which the input spikes, the neuron is given the impact one step later and spikes. -/
example : ∃ s, CudaRun CudaEx.pops CudaEx.projs CudaEx.inputs 1 CudaEx.envs s
    (CudaEx.outs (Cuda.run (Cuda.boot CudaEx.pops CudaEx.projs CudaEx.inputs 1) CudaEx.envs)) ∧
    (CudaEx.outs (Cuda.run (Cuda.boot CudaEx.pops CudaEx.projs CudaEx.inputs 1) CudaEx.envs)).map (·.spikes) =
      [[none], [some ⟨⟨10, 1⟩, [0]⟩], [none]] ∧
    (CudaEx.outs (Cuda.run (Cuda.boot CudaEx.pops CudaEx.projs CudaEx.inputs 1) CudaEx.envs)).map (·.heard) =
      [[[⟨⟨30, 0⟩, [0]⟩]], [[]], [[]]] := by
  obtain ⟨s, h⟩ := CudaEx.theRun
  exact ⟨s, h, by decide +kernel, by decide +kernel⟩

/-- C140. No step throws an exception. -/
theorem C140_no_exception (ha : Apart pops projs inputs) (hfit : ∀ j ∈ projs, Fits j.2)
    (hf : ∀ x ∈ envs, ∀ op ∈ x.1, Foreign chans op) (hlen : envs.length ≤ two64) (w : String) :
    Cuda.run (Cuda.boot pops projs inputs chans) envs ≠ .throw w := by
  obtain ⟨e0, hb⟩ := Cuda.boot_btw pops projs inputs chans ha hfit
  have hst : (Cuda.boot pops projs inputs chans).step = 0 := rfl
  exact (Cuda.run_spec envs _ _ _ e0 hb (by rw [hst, Nat.zero_add]; exact hlen) hf).1 w

/-- Every projection points to neurons its target population has, and the weights of its blocking synapses can be converted to
`unsigned int`. -/
def SaneNet (pops : List (Cuda.Pop F)) (projs : List (Delta.Ident × List (Delta.Syn F))) : Prop :=
  ∀ p ∈ pops, ∀ j ∈ projs, j.1.post = p.uid → ∀ s ∈ j.2, s.target < p.neurons.length ∧
    (s.outType = .blocking → ∃ v : Int, Arith.toI64 s.weight = some v ∧ 0 ≤ v ∧ v < 2 ^ 32)

/-- C140. Such a network runs: no undefined behaviour, in any number of steps, whatever the rest of the program sends. -/
theorem C140_defined (ha : Apart pops projs inputs) (hfit : ∀ j ∈ projs, Fits j.2) (hnd : (projs.map (·.1.uid)).Nodup)
    (hsane : SaneNet pops projs) (hf : ∀ x ∈ envs, ∀ op ∈ x.1, Foreign chans op) (hlen : envs.length ≤ two64) :
    ∃ s os, Cuda.run (Cuda.boot pops projs inputs chans) envs = .ok (s, os) := by
  obtain ⟨e0, hb⟩ := Cuda.boot_btw pops projs inputs chans ha hfit
  have hst : (Cuda.boot pops projs inputs chans).step = 0 := rfl
  have hdp : (Cuda.boot pops projs inputs chans).dev.projs = projs.map (fun j => Cuda.Proj.make j.1 j.2) := rfl
  refine Cuda.run_safe (shapes := pops.map Cuda.Pop.shape) (kinds := projs) ?_ hnd ?_ envs _ _ _ e0 hb ?_
    (by rw [hst, Nat.zero_add]; exact hlen) hf
  · intro p hp j hj hpost s hs
    obtain ⟨p', hp', rfl⟩ := List.mem_map.1 hp
    obtain ⟨h1, h2⟩ := hsane p' hp' j hj hpost s hs
    refine ⟨?_, h2⟩
    rw [Nat.mod_eq_of_lt (hfit j hj s hs).2]
    exact h1
  · intro r s hrs
    simp only [hearing, hearingOf, Bool.and_eq_true, List.any_eq_true, List.mem_map, beq_iff_eq] at hrs
    obtain ⟨_, _, ⟨j, hj, rfl⟩, h1, h2⟩ := hrs
    exact ⟨j, hj, h1, h2⟩
  · refine ⟨rfl, ?_, ?_, fun g hg => by cases hg⟩
    · rw [hdp, List.map_map]
      conv => rhs; rw [← List.map_id projs]
      apply List.map_congr_left
      intro j hj
      rw [Function.comp, Cuda.make_eq _ (hfit j hj)]
      rfl
    · intro j hj m hm
      rw [hdp] at hj
      obtain ⟨j', _, rfl⟩ := List.mem_map.1 hj
      simp [Cuda.Proj.make] at hm

example : SaneNet CudaEx.pops CudaEx.projs ∧ Apart CudaEx.pops CudaEx.projs CudaEx.inputs ∧ (CudaEx.projs.map (·.1.uid)).Nodup := by
  refine ⟨?_, CudaEx.apart, by decide⟩
  intro p hp j hj _ s hs
  simp only [CudaEx.pops, CudaEx.projs, List.mem_singleton] at hp hj
  subst hp hj
  simp only [List.mem_singleton] at hs
  subst hs
  exact ⟨by decide, by decide⟩

/-- An impact to a neuron the population does not have is undefined behaviour: the index is not checked. -/
theorem C140_bad_target : Cuda.run (Cuda.boot CudaEx.pops [(⟨20, 0, 10, false⟩, [⟨0, 7, 6, 1, .excitatory⟩])] CudaEx.inputs 1)
    CudaEx.envs = .ub := by
  generalize hr : Cuda.run (Cuda.boot CudaEx.pops [(⟨20, 0, 10, false⟩, [⟨0, 7, 6, 1, .excitatory⟩])] CudaEx.inputs 1) CudaEx.envs = r
  have h1 : (Cuda.run (Cuda.boot CudaEx.pops [(⟨20, 0, 10, false⟩, [⟨0, 7, 6, 1, .excitatory⟩])] CudaEx.inputs 1) CudaEx.envs).isOk = false := by
    decide +kernel
  have h2 : (Cuda.run (Cuda.boot CudaEx.pops [(⟨20, 0, 10, false⟩, [⟨0, 7, 6, 1, .excitatory⟩])] CudaEx.inputs 1) CudaEx.envs).isThrow = false := by
    decide +kernel
  rw [hr] at h1 h2
  cases r with
  | ub => rfl
  | ok x => cases h1
  | throw w => cases h2

/-! ## C135: delays and weights -/

omit [Arith F] in
theorem ascending_exact (synapses : List (Delta.Syn F)) : ExactFind (ascending synapses) := by
  intro n
  constructor
  · unfold ascending
    simp only
    have : (synapses.zipIdx.map (·.2)).Nodup := by
      rw [List.zipIdx_map_snd]; exact List.nodup_range'
    exact List.Nodup.sublist (List.Sublist.map _ List.filter_sublist) this
  · intro k
    unfold ascending
    simp only [List.mem_map, List.mem_filter, beq_iff_eq]
    constructor
    · rintro ⟨⟨x, i⟩, ⟨h1, h2⟩, rfl⟩
      exact ⟨x, List.mk_mem_zipIdx_iff_getElem?.1 h1, h2⟩
    · rintro ⟨x, h1, h2⟩
      exact ⟨(x, k), ⟨List.mk_mem_zipIdx_iff_getElem?.2 h1, h2⟩, rfl⟩

omit [Arith F] in
theorem impactsOf_perm (u : UID) (k : Nat) {a b : List (SynapticImpactMessage F)} (h : a.Perm b) : impactsOf u k a = impactsOf u k b := by
  unfold impactsOf
  exact List.Perm.countP_eq _ (List.Perm.flatMap_right _ (h.filter _))

/-- C135. A synapse on the device: in step `T` the postsynaptic population is given, from a synapse with delay `D`, as many impacts as its
source neuron spiked in the messages the projection was given in step `T - D` — none before step `D` — and every impact of the projection
carries the weight, type and ends of its synapse.  The same as on the CPU backends (C105). -/
theorem C135_end_to_end (h : CudaRun pops projs inputs chans envs s os) (hnj : (projs.map (·.1.uid)).Nodup)
    (a : Nat) (p : Cuda.Pop F) (hp : pops[a]? = some p) (hp0 : p.uid ≠ 0) (b : Nat) (j : Delta.Ident × List (Delta.Syn F))
    (hj : projs[b]? = some j) (hpost : j.1.post = p.uid)
    (hsound : ∀ i ∈ projs, ∀ y ∈ i.2, 1 ≤ y.delay ∧ envs.length + y.delay < two64) (T : Nat) (o : Cuda.Out F) (hT : os[T]? = some o) :
    (∀ k y, j.2[k]? = some y → impactsOf j.1.uid k (o.given.getD a []) =
      if y.delay ≤ T then spikesOf y.source ((os.getD (T - y.delay) ⟨[], [], [], [], []⟩).heard.getD b []) else 0) ∧
    (∀ m ∈ o.given.getD a [], m.header.senderUid = j.1.uid → ∀ im ∈ m.impacts, ∃ y, j.2[im.connectionIndex]? =
      some y ∧ im = ⟨im.connectionIndex, y.weight, y.outType, y.source, y.target⟩) := by
  obtain ⟨projs', _, _, hrun⟩ := flow h
  obtain ⟨c1, c2⟩ := Cuda.devRun_each _ _ _ _ _ _ _ hrun
  rw [List.length_map] at c1
  have hTl : T < os.length := (List.getElem?_eq_some_iff.1 hT).1
  obtain ⟨g1, _⟩ := c2 T o hT
  obtain ⟨g, g2, g3⟩ := g1 a p hp
  have hgd : o.given.getD a [] = g := by rw [List.getD_eq_getElem?_getD, g2]; rfl
  rw [hgd]
  have hjm : j ∈ projs := List.mem_of_getElem? hj
  have hhear : (hearing projs inputs).impact p.uid j.1.uid = true := by
    simp only [hearing, hearingOf, Bool.and_eq_true, decide_eq_true_eq, List.any_eq_true, beq_iff_eq]
    exact ⟨hp0, (j.1, ascending j.2), List.mem_map.2 ⟨j, hjm, rfl⟩, hpost, rfl⟩
  have hgf : (g.filter (fun m => m.header.senderUid == j.1.uid)).Perm
      ((Cuda.pendingAt 0 (projs.map cpuProj) [] os T).filter (fun m => m.header.senderUid == j.1.uid)) := by
    refine (g3.filter _).trans (List.Perm.of_eq ?_)
    rw [List.filter_filter]
    apply List.filter_congr
    intro m _
    by_cases hm : m.header.senderUid = j.1.uid
    · simp [hm, hhear]
    · have : (m.header.senderUid == j.1.uid) = false := by simpa using hm
      rw [this, Bool.false_and]
  -- what projection number `n` sends
  let hist : Nat → List (List SpikeMessage) := fun n => os.map (fun o => o.heard.getD n [])
  have hout : ∀ i ∈ projs, ∀ n t, t < os.length → ∃ out,
      (Delta.runSingle (cpuProj i).ident 0 [] ((hist n).map (fun m => ⟨ascending i.2, m⟩))).1[t]? = some out ∧
      (∀ m, out = some m → m.header.senderUid = i.1.uid) ∧
      (∀ k y, i.2[k]? = some y → (delivered out).countP (fun im => im.connectionIndex == k) =
          if y.delay - 1 ≤ t then spikesOf y.source ((hist n).getD (t - (y.delay - 1)) []) else 0) ∧
      ∀ im ∈ delivered out, ∃ y, i.2[im.connectionIndex]? = some y ∧ im =
        ⟨im.connectionIndex, y.weight, y.outType, y.source, y.target⟩ := by
    intro i hi n t ht
    have hlen : (hist n).length = envs.length := by simp only [hist, List.length_map, c1]
    have hs : Sound (0 + (hist n).length) (ascending i.2) := by
      intro y hy
      obtain ⟨f1, f2⟩ := h.fits i hi y hy
      obtain ⟨d1, d2⟩ := hsound i hi y hy
      exact ⟨f1, f2, d1, by rw [hlen]; omega⟩
    obtain ⟨out, o1, o2, o3⟩ := C42_delay_honoured (cpuProj i).ident 0 (ascending i.2) (ascending_exact i.2) (hist n) hs t
      (by rw [hlen]; omega)
    refine ⟨out, o1, ?_, o2, o3⟩
    have h43 := (C43_no_loss_no_duplication (cpuProj i).ident 0 ((hist n).map (fun m => ⟨ascending i.2, m⟩)) (by
      intro a ha y hy
      rw [List.getElem_map] at hy
      obtain ⟨s1, s2, s3, s4⟩ := hs y hy
      rw [List.length_map] at ha
      exact ⟨s1, s2, s3, by omega⟩)).1 t (by rw [List.length_map, hlen]; omega)
    rw [o1] at h43
    intro m hm
    have := Option.some.inj h43
    rw [hm] at this
    generalize List.filter _ _ = cl at this
    cases cl with
    | nil => simp [messageFor] at this
    | cons c cs =>
      simp only [messageFor, Option.some.injEq] at this
      rw [this]
      rfl
  have key : ∀ t, t < os.length → (Cuda.sentAt 0 (projs.map cpuProj) os t).filter (fun m => m.header.senderUid == j.1.uid) =
      ((((Delta.runSingle (cpuProj j).ident 0 [] ((hist b).map (fun m => ⟨ascending j.2, m⟩))).1[t]?).join).map (stamp (0 + t))).toList := by
    intro t ht
    unfold Cuda.sentAt
    rw [← List.flatMap_def]
    refine flatMap_uid (fun x : Sys.ProjSt F × Nat => x.1.ident.uid) (fun m : SynapticImpactMessage F => m.header.senderUid) _
      j.1.uid (cpuProj j, b) _ ?_ ?_ rfl ?_
    · have : ((projs.map cpuProj).zipIdx.map (fun x : Sys.ProjSt F × Nat => x.1.ident.uid)) = projs.map (·.1.uid) := by
        rw [show (fun x : Sys.ProjSt F × Nat => x.1.ident.uid) = (fun y : Sys.ProjSt F => y.ident.uid) ∘ Prod.fst from rfl,
          ← List.map_map, List.zipIdx_map_fst, List.map_map]
        rfl
      rw [this]
      exact hnj
    · rw [List.mk_mem_zipIdx_iff_getElem?, List.getElem?_map, hj]
      rfl
    · rintro ⟨x, n⟩ hx m hm
      rw [List.mk_mem_zipIdx_iff_getElem?, List.getElem?_map] at hx
      obtain ⟨i, hi, rfl⟩ := Option.map_eq_some_iff.1 hx
      obtain ⟨out, o1, o2, _⟩ := hout i (List.mem_of_getElem? hi) n t ht
      have o1' : (Delta.runSingle (cpuProj i).ident 0 (cpuProj i).queue ((os.map (fun o => o.heard.getD n [])).map
          (fun m => ⟨(cpuProj i).proj, m⟩))).1[t]? = some out := o1
      simp only [o1', Option.join_some] at hm
      cases out with
      | none => simp at hm
      | some m' =>
        simp only [Option.map_some, Option.toList_some, List.mem_singleton] at hm
        rw [hm]
        exact o2 m' rfl
  have hpos : ∀ (k : Nat) (y : Delta.Syn F), j.2[k]? = some y → 1 ≤ y.delay := by
    intro k y hy
    exact (hsound j hjm y (List.mem_of_getElem? hy)).1
  cases T with
  | zero =>
    have hg0 : g.filter (fun m => m.header.senderUid == j.1.uid) = [] := by
      have := hgf
      simp only [Cuda.pendingAt, List.filter_nil] at this
      exact List.perm_nil.1 this
    refine ⟨fun k y hy => ?_, fun m hm hu => ?_⟩
    · unfold impactsOf
      rw [hg0, if_neg (by have := hpos k y hy; omega)]
      rfl
    · have : m ∈ g.filter (fun m => m.header.senderUid == j.1.uid) := List.mem_filter.2 ⟨hm, by simpa using hu⟩
      rw [hg0] at this
      simp at this
  | succ t =>
    have ht : t < os.length := by omega
    obtain ⟨out, o1, o2, o3, o4⟩ := hout j hjm b t ht
    simp only [Cuda.pendingAt] at hgf
    rw [key t ht, o1, Option.join_some] at hgf
    refine ⟨fun k y hy => ?_, fun m hm hu => ?_⟩
    · have h1 := hpos k y hy
      have hd : ((g.filter (fun m => m.header.senderUid == j.1.uid)).flatMap (·.impacts)).countP (fun im => im.connectionIndex == k) =
          (delivered out).countP (fun im => im.connectionIndex == k) := by
        refine List.Perm.countP_eq _ ((List.Perm.flatMap_right _ hgf).trans (List.Perm.of_eq ?_))
        cases out <;> simp [delivered, stamp]
      unfold impactsOf
      rw [hd, o3 k y hy]
      by_cases hc : y.delay ≤ t + 1
      · rw [if_pos hc, if_pos (by omega)]
        have e : t - (y.delay - 1) = t + 1 - y.delay := by omega
        rw [e]
        congr 1
        have hl : t + 1 - y.delay < os.length := by omega
        simp only [hist]
        rw [List.getD_eq_getElem?_getD, List.getElem?_map, List.getElem?_eq_getElem hl, List.getD_eq_getElem?_getD (l := os),
          List.getElem?_eq_getElem hl]
        rfl
      · rw [if_neg hc, if_neg (by omega)]
    · have hm' : m ∈ g.filter (fun m => m.header.senderUid == j.1.uid) := List.mem_filter.2 ⟨hm, by simpa using hu⟩
      have hm'' := hgf.mem_iff.1 hm'
      intro im him
      cases out with
      | none => simp at hm''
      | some m2 =>
        simp only [Option.map_some, Option.toList_some, List.mem_singleton] at hm''
        subst hm''
        exact o4 im him

/-- The spike of the channel before step 0 arrives in step 1 through the synapse with delay 1. -/
example : (CudaEx.outs (Cuda.run (Cuda.boot CudaEx.pops CudaEx.projs CudaEx.inputs 1) CudaEx.envs)).map
    (fun o => impactsOf 20 0 (o.given.getD 0 [])) = [0, 1, 0] := by decide +kernel

/-! ## C136: messages of the host are not sent back -/

/-- C136. Everything the backend sends to the host is an impact message of a projection of the network, a spike message of one of its populations,
or an empty message of nobody; never a message it was sent. -/
theorem C136_no_echo (h : CudaRun pops projs inputs chans envs s os) (o : Cuda.Out F) (ho : o ∈ os) (m : Message F)
    (hm : m ∈ o.before ++ o.after) : m.sender ∉ inputs.map (·.2) ∧
    ((∃ x, m = .impact x ∧ x.header.senderUid ∈ projs.map (·.1.uid)) ∨ (∃ x, m = .spike x ∧ x.header.senderUid ∈ pops.map (·.uid)) ∨
      m = nobody) := by
  obtain ⟨k, hk⟩ := List.mem_iff_getElem?.1 ho
  obtain ⟨e0, hb⟩ := Cuda.boot_btw pops projs inputs chans h.apart h.fits
  have hst : (Cuda.boot pops projs inputs chans).step = 0 := rfl
  obtain ⟨l1, l2⟩ := Cuda.run_each envs _ _ _ e0 hb (by rw [hst, Nat.zero_add]; exact h.short) h.foreign s os h.ok
  have hkl : k < envs.length := by rw [← l1]; exact (List.getElem?_eq_some_iff.1 hk).1
  obtain ⟨s1, projs1, pending1, e1, s2, o1, q1, q2, q3, q4, q5, q6⟩ := l2 k envs[k].1 envs[k].2 (by rw [List.getElem?_eq_getElem hkl])
  rw [hk, Option.some.injEq] at q1
  subst q1
  have hs := Cuda.step_spec q2 (by rw [q3, hst]; have := h.short; omega) envs[k].1 (h.foreign _ (List.getElem_mem hkl)) envs[k].2
  rw [q6] at hs
  obtain ⟨a1, _⟩ := hs
  have hpu : projs1.map (·.ident.uid) = projs.map (·.1.uid) := by rw [q5, List.map_map]; rfl
  have hpp : s1.dev.pops.map (·.uid) = pops.map (·.uid) := q4
  have himp : ∀ x, (Message.impact x : Message F) ∈ pending1.map Message.impact → x.header.senderUid ∈ projs.map (·.1.uid) := by
    intro x hx
    obtain ⟨y, hy, he⟩ := List.mem_map.1 hx
    rw [Message.impact.injEq] at he
    rw [← he, ← hpu]
    exact q2.from_ y hy
  have main : ((∃ x, m = .impact x ∧ x.header.senderUid ∈ projs.map (·.1.uid)) ∨
      (∃ x, m = .spike x ∧ x.header.senderUid ∈ pops.map (·.uid)) ∨ m = nobody) := by
    rw [a1.before, a1.after] at hm
    have hcase : m ∈ pending1.map Message.impact ∨ m ∈ popsToHost s1.step o.spikes := by
      simp only [List.mem_append] at hm
      rcases hm with hm | hm | hm
      · exact .inl hm
      · exact .inl hm
      · exact .inr hm
    rcases hcase with hm | hm
    · obtain ⟨x, hx, rfl⟩ := List.mem_map.1 hm
      exact .inl ⟨x, rfl, himp x (List.mem_map.2 ⟨x, hx, rfl⟩)⟩
    · unfold popsToHost at hm
      obtain ⟨x, hx, he⟩ := List.mem_filterMap.1 hm
      cases x with
      | none =>
        simp only at he
        split at he
        · exact .inr (.inr (Option.some.inj he).symm)
        · cases he
      | some x =>
        simp only [Option.some.injEq] at he
        refine .inr (.inl ⟨x, he.symm, ?_⟩)
        rw [← hpp]
        exact ((Cuda.computePops_spec _ _ _ _ a1.computed).2 x hx).2
  refine ⟨?_, main⟩
  intro hc
  obtain ⟨i, hi, hii⟩ := List.mem_map.1 hc
  obtain ⟨b1, b2, b3⟩ := h.apart i hi
  rcases main with ⟨x, rfl, hx⟩ | ⟨x, rfl, hx⟩ | rfl
  · exact b3 (by rw [hii]; exact hx)
  · exact b2 (by rw [hii]; exact hx)
  · exact b1 (by rw [hii]; rfl)

/-! ## C137: what observers see -/

/-- C137. Spike messages of populations are sent to the host exactly once, in the step in which the population spikes. -/
theorem C137_spikes_once (h : CudaRun pops projs inputs chans envs s os) (h0 : ∀ p ∈ pops, p.uid ≠ 0) (o : Cuda.Out F) (ho : o ∈ os) :
    (Sys.spikesIn (o.before ++ o.after)).filter (fun m => decide (m.header.senderUid ≠ 0)) = o.spikes.filterMap id := by
  obtain ⟨_, _, _, hrun⟩ := flow h
  obtain ⟨_, c2⟩ := Cuda.devRun_each _ _ _ _ _ _ _ hrun
  obtain ⟨k, hk⟩ := List.mem_iff_getElem?.1 ho
  obtain ⟨_, _, a3, a4, _, a6⟩ := c2 k o hk
  have hi : ∀ l : List (SynapticImpactMessage F), Sys.spikesIn (l.map Message.impact) = [] := by
    intro l
    induction l with
    | nil => rfl
    | cons a l ih => exact ih
  rw [a3, a4, Cuda.spikesIn_append, Cuda.spikesIn_append, hi, List.nil_append, List.nil_append]
  have h6 : ∀ m, some m ∈ o.spikes → m.header.senderUid ≠ 0 := by
    intro m hm
    obtain ⟨p, hp, he⟩ := List.mem_map.1 (a6 m hm).2
    rw [← he]
    exact h0 p hp
  clear a3 a4 a6 hk ho
  revert h6
  generalize o.spikes = l
  intro h6
  induction l with
  | nil => rfl
  | cons a l ih =>
    have ih := ih (fun m hm => h6 m (by simp [hm]))
    have hs : ∀ (x : Message F) (y : List (Message F)), Sys.spikesIn (x :: y) = Sys.spikesIn [x] ++ Sys.spikesIn y :=
      fun x y => Cuda.spikesIn_append [x] y
    cases a with
    | none =>
      have e : popsToHost (F := F) (0 + k) (none :: l) = (if 0 + k ≤ 1 then [nobody] else []) ++ popsToHost (0 + k) l := by
        unfold popsToHost
        rw [List.filterMap_cons]
        by_cases hc : 0 + k ≤ 1
        · simp only [hc, if_true]; rfl
        · simp only [hc, if_false]; rfl
      rw [e, Cuda.spikesIn_append, List.filter_append, ih]
      by_cases hc : 0 + k ≤ 1
      · rw [if_pos hc]; rfl
      · rw [if_neg hc]; rfl
    | some m =>
      have e : popsToHost (F := F) (0 + k) (some m :: l) = .spike m :: popsToHost (0 + k) l := rfl
      rw [e, hs, List.filter_append, ih]
      have : Sys.spikesIn [(Message.spike m : Message F)] = [m] := rfl
      rw [this, List.filter_cons_of_pos (by simpa using h6 m (by simp))]
      rfl

/-- C137. Every impact message is sent to the host twice, both times in the step after the one in which the projection sends it: before
the populations are computed and again after that. -/
theorem C137_impacts_twice_partial (h : CudaRun pops projs inputs chans envs s os) (o : Cuda.Out F) (ho : o ∈ os) :
    Sys.impactsIn o.after = Sys.impactsIn o.before ∧ o.before = (Sys.impactsIn o.before).map Message.impact := by
  obtain ⟨_, _, _, hrun⟩ := flow h
  obtain ⟨_, c2⟩ := Cuda.devRun_each _ _ _ _ _ _ _ hrun
  obtain ⟨k, hk⟩ := List.mem_iff_getElem?.1 ho
  obtain ⟨_, _, a3, a4, _, _⟩ := c2 k o hk
  have hz : ∀ l : List (Option SpikeMessage), Sys.impactsIn (popsToHost (F := F) (0 + k) l) = [] := by
    intro l
    induction l with
    | nil => rfl
    | cons a l ih =>
      cases a with
      | some m => exact ih
      | none =>
        unfold popsToHost at ih ⊢
        rw [List.filterMap_cons]
        by_cases hc : 0 + k ≤ 1
        · simp only [hc, if_true] at ih ⊢; exact ih
        · simp only [hc, if_false] at ih ⊢; exact ih
  rw [a3, a4, Cuda.impactsIn_append, Sys.impactsIn_map, hz, List.append_nil]
  exact ⟨rfl, rfl⟩

/-- C137. What of it arrives at another endpoint in a step: all messages sent before and after the computation from senders the endpoint listens to,
and what the rest of the program sent. -/
theorem C137_arrives (h : CudaRun pops projs inputs chans envs s os) (hlen : envs.length < two64) (env : List (Op F))
    (hf : ∀ op ∈ env, Foreign chans op) (sc : Cuda.Sched) {s' : Cuda.State F} {o : Cuda.Out F}
    (hs : Cuda.step sc { s with world := s.world.run env } = .ok (s', o)) (i : Nat) (hi : 1 ≤ i) (ep : Endpoint F)
    (hep : (s.world.run env).endpoint i = some ep) :
    (arrived s'.world i).Perm (ep.recv ++ (o.before ++ extOf chans env ++ o.after).filter (fun m => ep.senders.contains m.sender)) := by
  obtain ⟨projs', ⟨pending', e', hb⟩, hst, _⟩ := flow h
  have := Cuda.step_spec hb (by rw [hst]; exact hlen) env hf sc
  rw [hs] at this
  simp only at this
  obtain ⟨_, _, _, h4⟩ := this
  have h5 := h4 i hi
  unfold arrived
  rw [h5, hep]
  simp only [Option.map_some, Option.getD_some, routed]
  rw [List.append_assoc]
  refine List.Perm.append_left _ ?_
  rw [List.filter_append]
  exact List.Perm.append (List.Perm.filter _ (List.reverse_perm _)) (List.Perm.filter _ (List.reverse_perm _))

/-- The full property: no message of the network is sent to the host twice (UIDs are different, no projection sends two messages in a
step, so no two messages are equal), and only messages of entities of the network are sent. -/
def C137_statement : Prop :=
  ∀ (pops : List (Cuda.Pop Int)) (projs : List (Delta.Ident × List (Delta.Syn Int))) (inputs : List (UID × UID)) (chans : Nat)
    (envs : List (List (Op Int) × Cuda.Sched)) (s : Cuda.State Int) (os : List (Cuda.Out Int)),
    CudaRun pops projs inputs chans envs s os → (pops.map (·.uid) ++ projs.map (·.1.uid)).Nodup →
    (os.flatMap (fun o => o.before ++ o.after)).Nodup ∧
    ∀ o ∈ os, ∀ m ∈ o.before ++ o.after, m.sender ∈ pops.map (·.uid) ++ projs.map (·.1.uid)

/-- C137 does not hold: the impact message of the first step is sent twice. -/
theorem C137_refuted : ¬ C137_statement := by
  intro h
  obtain ⟨s, hr⟩ := CudaEx.theRun
  have := (h _ _ _ _ _ _ _ hr (by decide)).1
  revert this
  decide +kernel

/-- In the first two steps populations that did not spike send an empty message of nobody. -/
theorem C137_nobody_refuted : ∃ s, ∃ os, CudaRun CudaEx.pops CudaEx.projs CudaEx.inputs 1 CudaEx.envs s os ∧
    ∃ o ∈ os, Message.spike ⟨⟨0, 0⟩, []⟩ ∈ o.after := by
  obtain ⟨s, hr⟩ := CudaEx.theRun
  refine ⟨s, _, hr, ?_⟩
  decide +kernel

/-! ## C138: input channels -/

omit [Arith F] in
theorem count_arrivals (inputs : List (UID × UID)) (m : SpikeMessage) : ∀ ext : List (Message F),
    (deviceArrivals inputs ext).count m = (Sys.spikesIn ext).count m * fanout inputs m.header.senderUid := by
  intro ext
  unfold deviceArrivals
  induction Sys.spikesIn ext with
  | nil => simp
  | cons a l ih =>
    rw [List.flatMap_cons, List.count_append, ih, List.count_cons, Nat.add_mul, Nat.add_comm]
    congr 1
    rw [List.count_replicate]
    by_cases ha : a = m
    · subst ha; simp
    · have h1 : (a == m) = false := by simpa using ha
      simp [h1]

/-- C138. A projection that is connected to a channel is given every message of the channel as often as entities are connected to the
channel; a projection that is not connected to it is never given one. -/
theorem C138_fanout_partial (h : CudaRun pops projs inputs chans envs s os) (T : Nat) (o : Cuda.Out F) (hT : os[T]? = some o)
    (b : Nat) (j : Delta.Ident × List (Delta.Syn F)) (hj : projs[b]? = some j) (c : UID) (hc : c ∈ inputs.map (·.2))
    (m : SpikeMessage) (hm : m.header.senderUid = c) :
    ((j.1.uid, c) ∈ inputs → (o.heard.getD b []).count m =
      (Sys.spikesIn (extOf chans (envs.getD T ([], ⟨[], fun _ => [], fun _ => []⟩)).1)).count m * fanout inputs c) ∧
    ((j.1.uid, c) ∉ inputs → (∀ i ∈ projs, i.1.uid = j.1.uid → i.1.pre ≠ c) → (o.heard.getD b []).count m = 0) := by
  obtain ⟨_, _, _, hrun⟩ := flow h
  obtain ⟨c1, c2⟩ := Cuda.devRun_each _ _ _ _ _ _ _ hrun
  obtain ⟨_, a2, _, _, _, a6⟩ := c2 T o hT
  obtain ⟨hd, d1, d2⟩ := a2 b (cpuProj j) (by rw [List.getElem?_map, hj]; rfl)
  have hext : (envs.map (fun x => extOf chans x.1)).getD T [] = extOf chans (envs.getD T ([], ⟨[], fun _ => [], fun _ => []⟩)).1 := by
    have hT' : T < envs.length := by
      rw [List.length_map] at c1
      rw [← c1]; exact (List.getElem?_eq_some_iff.1 hT).1
    rw [List.getD_eq_getElem?_getD, List.getElem?_map, List.getD_eq_getElem?_getD, List.getElem?_eq_getElem hT']
    rfl
  rw [hext] at d2
  have hgd : o.heard.getD b [] = hd := by rw [List.getD_eq_getElem?_getD, d1]; rfl
  obtain ⟨i, hi, hii⟩ := List.mem_map.1 hc
  obtain ⟨b1, b2, b3⟩ := h.apart i hi
  rw [hii] at b1 b2 b3
  have hno : m ∉ o.spikes.filterMap id := by
    intro hx
    rw [List.mem_filterMap] at hx
    obtain ⟨y, hy, hy2⟩ := hx
    simp only [id] at hy2
    rw [hy2] at hy
    exact b2 (by rw [← hm]; exact (a6 m hy).2)
  rw [hgd, d2.count_eq]
  have hid : (cpuProj j).ident.uid = j.1.uid := rfl
  have hcnt : ∀ g : SpikeMessage → Bool, ((deviceArrivals inputs (extOf chans (envs.getD T ([], ⟨[], fun _ => [], fun _ => []⟩)).1) ++
      o.spikes.filterMap id).filter g).count m =
      if g m then (Sys.spikesIn (extOf chans (envs.getD T ([], ⟨[], fun _ => [], fun _ => []⟩)).1)).count m * fanout inputs c else 0 := by
    intro g
    by_cases hg : g m
    · rw [List.count_filter hg, if_pos hg, List.count_append, List.count_eq_zero.2 hno, Nat.add_zero, count_arrivals, hm]
    · rw [if_neg hg, List.count_eq_zero]
      intro hx
      exact hg (List.mem_filter.1 hx).2
  rw [hcnt, hid, hm]
  constructor
  · intro hin
    have : (hearing projs inputs).spike j.1.uid c = true := by
      unfold hearing hearingOf
      simp only [Bool.or_eq_true]
      exact .inr (by simpa using hin)
    rw [this, if_pos rfl]
  · intro hin hpre
    refine if_neg ?_
    unfold hearing hearingOf
    simp only [Bool.or_eq_true, Bool.and_eq_true, decide_eq_true_eq, List.any_eq_true, beq_iff_eq, List.mem_map]
    rintro (⟨_, _, ⟨i, hi, rfl⟩, h1, h2⟩ | hx)
    · exact hpre i hi h1 h2
    · exact hin (by simpa using hx)

/-- C138. If no other entity is connected to the channel, the projection is given each message once. -/
theorem C138_once_partial (h : CudaRun pops projs inputs chans envs s os) (T : Nat) (o : Cuda.Out F) (hT : os[T]? = some o)
    (b : Nat) (j : Delta.Ident × List (Delta.Syn F)) (hj : projs[b]? = some j) (c : UID) (hc : (j.1.uid, c) ∈ inputs)
    (honly : ∀ i ∈ inputs, i.2 = c → i.1 = j.1.uid) (m : SpikeMessage) (hm : m.header.senderUid = c) :
    (o.heard.getD b []).count m = (Sys.spikesIn (extOf chans (envs.getD T ([], ⟨[], fun _ => [], fun _ => []⟩)).1)).count m := by
  rw [(C138_fanout_partial h T o hT b j hj c (List.mem_map.2 ⟨_, hc, rfl⟩) m hm).1 hc]
  have : fanout inputs c = 1 := by
    unfold fanout
    have h1 : ∀ x ∈ (inputs.filter (fun i => i.2 == c)).map (·.1), x = j.1.uid := by
      intro x hx
      obtain ⟨i, hi, rfl⟩ := List.mem_map.1 hx
      obtain ⟨h1, h2⟩ := List.mem_filter.1 hi
      exact honly i h1 (by simpa using h2)
    have h2 : j.1.uid ∈ ((inputs.filter (fun i => i.2 == c)).map (·.1)).dedup := by
      rw [List.mem_dedup]
      exact List.mem_map.2 ⟨(j.1.uid, c), List.mem_filter.2 ⟨hc, by simp⟩, rfl⟩
    have h3 : ∀ x ∈ ((inputs.filter (fun i => i.2 == c)).map (·.1)).dedup, x = j.1.uid := fun x hx => h1 x (List.mem_dedup.1 hx)
    have h4 := List.nodup_dedup ((inputs.filter (fun i => i.2 == c)).map (·.1))
    generalize ((inputs.filter (fun i => i.2 == c)).map (·.1)).dedup = l at h2 h3 h4
    match l with
    | [] => simp at h2
    | [_] => rfl
    | a :: b :: l =>
      have e1 := h3 a (by simp)
      have e2 := h3 b (by simp)
      rw [e1, e2] at h4
      simp at h4
  rw [this, Nat.mul_one]

/-- The full property: a projection connected to a channel is given every message of the channel once. -/
def C138_statement : Prop :=
  ∀ (pops : List (Cuda.Pop Int)) (projs : List (Delta.Ident × List (Delta.Syn Int))) (inputs : List (UID × UID)) (chans : Nat)
    (envs : List (List (Op Int) × Cuda.Sched)) (s : Cuda.State Int) (os : List (Cuda.Out Int)),
    CudaRun pops projs inputs chans envs s os → inputs.Nodup → ∀ (T : Nat) (o : Cuda.Out Int), os[T]? = some o →
    ∀ (b : Nat) (j : Delta.Ident × List (Delta.Syn Int)), projs[b]? = some j → ∀ m : SpikeMessage, (j.1.uid, m.header.senderUid) ∈ inputs →
    (o.heard.getD b []).count m = (Sys.spikesIn (extOf chans (envs.getD T ([], ⟨[], fun _ => [], fun _ => []⟩)).1)).count m

/-- C138 does not hold: with two projections connected to a channel, each one is given every message twice. -/
theorem C138_refuted : ¬ C138_statement := by
  intro h
  obtain ⟨s, hs⟩ := CudaEx.run_outs (r := Cuda.run (Cuda.boot CudaEx.pops CudaEx.projs2 CudaEx.inputs2 1) CudaEx.envs) (by decide +kernel)
  have := h _ _ _ _ _ _ _ ⟨CudaEx.apart2, CudaEx.fits2, CudaEx.foreign, by decide, hs⟩ (by decide) 0 _ rfl 0 _ rfl ⟨⟨30, 0⟩, [0]⟩ (by decide)
  revert this
  decide +kernel

/-! ## C139: the order of threads -/

/-- C139. If in a run no entity is given two messages in a step, every other order of threads and hash tables gives the same steps, the same
populations and the same messages in the projections. -/
theorem C139_single_messages_partial (h : CudaRun pops projs inputs chans envs s os)
    (hone : ∀ o ∈ os, (∀ g ∈ o.given, g.length ≤ 1) ∧ ∀ x ∈ o.heard, x.length ≤ 1)
    (envs' : List (List (Op F) × Cuda.Sched)) (he : envs.map (·.1) = envs'.map (·.1)) :
    ∃ s', Cuda.run (Cuda.boot pops projs inputs chans) envs' = .ok (s', os) ∧ s.dev.pops = s'.dev.pops ∧
      s.dev.projs.map (·.queue) = s'.dev.projs.map (·.queue) := by
  obtain ⟨e0, hb⟩ := Cuda.boot_btw pops projs inputs chans h.apart h.fits
  have hst : (Cuda.boot pops projs inputs chans).step = 0 := rfl
  exact Cuda.run_same envs envs' _ _ _ _ e0 e0 he hb hb rfl rfl (by rw [hst, Nat.zero_add]; exact h.short) h.foreign s os h.ok hone

example : ∀ o ∈ CudaEx.outs (Cuda.run (Cuda.boot CudaEx.pops CudaEx.projs CudaEx.inputs 1) CudaEx.envs),
    (∀ g ∈ o.given, g.length ≤ 1) ∧ ∀ x ∈ o.heard, x.length ≤ 1 := by decide +kernel

/-- The full property: the order in which threads run does not change what a run does. -/
def C139_statement : Prop :=
  ∀ (pops : List (Cuda.Pop Int)) (projs : List (Delta.Ident × List (Delta.Syn Int))) (inputs : List (UID × UID)) (chans : Nat)
    (envs envs' : List (List (Op Int) × Cuda.Sched)) (s s' : Cuda.State Int) (os os' : List (Cuda.Out Int)),
    CudaRun pops projs inputs chans envs s os → CudaRun pops projs inputs chans envs' s' os' → envs.map (·.1) = envs'.map (·.1) →
    os.map (·.spikes) = os'.map (·.spikes)

namespace CudaEx

/-- Two projections with different numbers of synapses into one population. -/
def projs3 : List (Delta.Ident × List (Delta.Syn Int)) :=
  [(⟨20, 0, 10, false⟩, [⟨0, 0, 6, 1, .excitatory⟩]), (⟨21, 0, 10, false⟩, [⟨0, 0, 1, 1, .excitatory⟩, ⟨0, 0, 1, 1, .excitatory⟩])]

theorem apart3 : Apart CudaEx.pops projs3 inputs2 := by
  intro i hi
  simp only [inputs2, List.mem_cons, List.not_mem_nil, or_false] at hi
  rcases hi with rfl | rfl <;> decide

theorem fits3 : ∀ j ∈ projs3, Fits j.2 := by
  intro j hj
  simp only [projs3, List.mem_cons, List.not_mem_nil, or_false] at hj
  rcases hj with rfl | rfl
  · intro s hs; simp only [List.mem_singleton] at hs; subst hs; decide
  · intro s hs
    simp only [List.mem_cons, List.not_mem_nil, or_false] at hs
    rcases hs with rfl | rfl <;> decide

/-- The same steps with another order of threads. -/
def envs' : List (List (Op Int) × Cuda.Sched) := [fire 30 0 sc, ([], sc'), ([], sc)]

theorem foreign' : ∀ x ∈ envs', ∀ op ∈ x.1, Foreign 1 op := by
  intro x hx
  simp only [envs', List.mem_cons, List.not_mem_nil, or_false] at hx
  rcases hx with rfl | rfl | rfl
  · exact fire_foreign _ _ _
  · simp
  · simp

end CudaEx

/-- C139 does not hold: the neuron spikes as often as the message that happens to come first has impacts. -/
theorem C139_refuted : ¬ C139_statement := by
  intro h
  obtain ⟨s, hs⟩ := CudaEx.run_outs (r := Cuda.run (Cuda.boot CudaEx.pops CudaEx.projs3 CudaEx.inputs2 1) CudaEx.envs) (by decide +kernel)
  obtain ⟨s', hs'⟩ := CudaEx.run_outs (r := Cuda.run (Cuda.boot CudaEx.pops CudaEx.projs3 CudaEx.inputs2 1) CudaEx.envs') (by decide +kernel)
  have := h _ _ _ _ _ _ _ _ _ _ ⟨CudaEx.apart3, CudaEx.fits3, CudaEx.foreign, by decide, hs⟩
    ⟨CudaEx.apart3, CudaEx.fits3, CudaEx.foreign', by decide, hs'⟩ rfl
  revert this
  decide +kernel

/-! ## C133: loading -/

/-- The containers of the host side play no part in a step. -/
private theorem step_host (sc : Cuda.Sched) (w : World F) (a : List (Cuda.Pop F)) (b : List (Cuda.Proj F)) (d : Cuda.Device F) (t : Nat) :
    Cuda.step sc ⟨w, a, b, d, t⟩ = match Cuda.step sc ⟨w, [], [], d, t⟩ with
      | .ok r => .ok ({ r.1 with pops := a, projs := b }, r.2)
      | .throw x => .throw x
      | .ub => .ub := by
  unfold Cuda.step
  simp only
  cases w.endpoint 0 with
  | none => rfl
  | some e0 =>
    simp only
    generalize (if t = 0 then Cuda.syncWithHost sc.sync d.subs e0 else (d.subs, e0)) = sy
    generalize World.endpoint _ 0 = e1
    cases e1 with
    | none => rfl
    | some e1 =>
      simp only
      generalize Cuda.calcPops (F := F) sc t _ = c
      cases c with
      | throw x => rfl
      | ub => rfl
      | ok r => rfl

private theorem run_host (a : List (Cuda.Pop F)) (b : List (Cuda.Proj F)) (envs : List (List (Op F) × Cuda.Sched)) :
    ∀ (w : World F) (d : Cuda.Device F) (t : Nat), Cuda.run ⟨w, a, b, d, t⟩ envs = match Cuda.run ⟨w, [], [], d, t⟩ envs with
      | .ok r => .ok ({ r.1 with pops := a, projs := b }, r.2)
      | .throw x => .throw x
      | .ub => .ub := by
  induction envs with
  | nil => intro w d t; rfl
  | cons x envs ih =>
    intro w d t
    obtain ⟨env, sc⟩ := x
    unfold Cuda.run
    simp only
    rw [step_host]
    cases h : Cuda.step sc ⟨w.run env, [], [], d, t⟩ with
    | throw x => rfl
    | ub => rfl
    | ok r =>
      obtain ⟨⟨w1, a1, b1, d1, t1⟩, o⟩ := r
      have hab : a1 = [] ∧ b1 = [] := by
        rw [step_host] at h
        cases h2 : Cuda.step sc ⟨w.run env, [], [], d, t⟩ with
        | throw x => rw [h2] at h; cases h
        | ub => rw [h2] at h; cases h
        | ok q =>
          rw [h2] at h
          simp only [Outcome.ok.injEq, Prod.mk.injEq, Cuda.State.mk.injEq] at h
          exact ⟨h.1.2.1.symm, h.1.2.2.1.symm⟩
      rw [hab.1, hab.2]
      simp only
      rw [ih]
      cases Cuda.run ⟨w1, [], [], d1, t1⟩ envs with
      | throw x => rfl
      | ub => rfl
      | ok r => rfl

/-- C133. A network loaded with `load_all_populations` and `load_all_projections` — as the model loader does — stays on the host: however many
steps are made, no population and no projection is computed, the populations stay as they are and nothing is sent. -/
theorem C133_never_runs (pops : List (Cuda.Pop F)) (projs : List (Delta.Ident × List (Delta.Syn F))) (inputs : List (UID × UID))
    (chans : Nat) (hin : ∀ i ∈ inputs, i.2 ≠ 0) (envs : List (List (Op F) × Cuda.Sched)) (hf : ∀ x ∈ envs, ∀ op ∈ x.1, Foreign chans op)
    (hlen : envs.length ≤ two64) : ∃ s os, Cuda.run (Cuda.bootAll pops projs inputs chans) envs = .ok (s, os) ∧ s.pops = pops ∧
      s.dev.pops = [] ∧ s.dev.projs = [] ∧ os.length = envs.length ∧
      ∀ o ∈ os, o.given = [] ∧ o.spikes = [] ∧ o.heard = [] ∧ o.before = [] ∧ o.after = [] := by
  have ha : Apart ([] : List (Cuda.Pop F)) [] inputs := fun i hi => ⟨hin i hi, by simp, by simp⟩
  obtain ⟨s, os, hr⟩ := C140_defined (pops := ([] : List (Cuda.Pop F))) (projs := []) ha (by simp) (by simp)
    (fun p hp => by cases hp) hf hlen
  have hboot : Cuda.boot ([] : List (Cuda.Pop F)) [] inputs chans = ⟨(Cuda.create inputs chans).world, [], [], .fresh, 0⟩ := rfl
  have hall : Cuda.bootAll pops projs inputs chans = ⟨(Cuda.create inputs chans).world, pops, projs.map (fun j => ⟨j.1, j.2, []⟩), .fresh, 0⟩ := rfl
  have hrun : CudaRun ([] : List (Cuda.Pop F)) [] inputs chans envs s os := ⟨ha, by simp, hf, hlen, hr⟩
  obtain ⟨projs', ⟨_, _, hb⟩, _, hdev⟩ := flow hrun
  obtain ⟨mp, made, _, _⟩ : Cuda.Made (F := F) [] [] s.dev := by
    clear hrun hdev hb
    have gen : ∀ (envs : List (List (Op F) × Cuda.Sched)) (s s' : Cuda.State F) (os : List (Cuda.Out F)), Cuda.Made [] [] s.dev →
        Cuda.run s envs = .ok (s', os) → Cuda.Made [] [] s'.dev := by
      intro envs
      induction envs with
      | nil => intro s s' os hm h; simp only [Cuda.run, Outcome.ok.injEq, Prod.mk.injEq] at h; rw [← h.1]; exact hm
      | cons x envs ih =>
        intro s s' os hm h
        obtain ⟨env, sc⟩ := x
        unfold Cuda.run at h
        cases h1 : Cuda.step sc { s with world := s.world.run env } with
        | throw w => rw [h1] at h; cases h
        | ub => rw [h1] at h; cases h
        | ok r =>
          obtain ⟨s1, o⟩ := r
          rw [h1] at h
          simp only at h
          cases h2 : Cuda.run s1 envs with
          | throw w => rw [h2] at h; cases h
          | ub => rw [h2] at h; cases h
          | ok q =>
            rw [h2] at h
            simp only [Outcome.ok.injEq, Prod.mk.injEq] at h
            rw [← h.1]
            exact ih s1 q.1 q.2 (Cuda.made_step (s := { s with world := s.world.run env }) hm h1) h2
    exact gen envs _ _ _ ⟨rfl, rfl, (fun j hj => by cases hj), (fun g hg => by cases hg)⟩ hr
  rw [hboot] at hr
  rw [hall, run_host, hr]
  simp only
  obtain ⟨c1, c2⟩ := Cuda.devRun_each _ _ _ _ _ _ _ hdev
  refine ⟨_, _, rfl, rfl, List.map_eq_nil_iff.1 mp, List.map_eq_nil_iff.1 made, by rw [c1, List.length_map], ?_⟩
  have gen : ∀ (exts : List (List (Message F))) (t : Nat) (os : List (Cuda.Out F)) (fin : List (Cuda.Pop F) × List (Sys.ProjSt F)),
      DevRun (hearing (F := F) [] inputs) inputs t [] [] [] exts os fin →
      ∀ o ∈ os, o.given = [] ∧ o.spikes = [] ∧ o.heard = [] ∧ o.before = [] ∧ o.after = [] := by
    intro exts
    induction exts with
    | nil => intro t os fin h o ho; rw [h.1] at ho; cases ho
    | cons ext exts ih =>
      intro t os fin h o ho
      obtain ⟨o1, rest, pops', rfl, hs, hrest⟩ := h
      have hg : o1.given = [] := List.length_eq_zero_iff.1 (Cuda.forall₂_length hs.given).symm
      have hh : o1.heard = [] := List.length_eq_zero_iff.1 (Cuda.forall₂_length hs.heard).symm
      have hc := hs.computed
      simp only [computePops, Outcome.ok.injEq, Prod.mk.injEq] at hc
      rcases List.mem_cons.1 ho with rfl | ho
      · exact ⟨hg, hc.2.symm, hh, hs.before, by rw [hs.after, ← hc.2]; rfl⟩
      · rw [← hc.1] at hrest
        exact ih _ _ _ hrest o ho
  exact gen _ _ _ _ hdev

/-- The full property: a network loaded as the model loader loads it runs like one loaded with `load_populations` and `load_projections`. -/
def C133_statement : Prop :=
  ∀ (pops : List (Cuda.Pop Int)) (projs : List (Delta.Ident × List (Delta.Syn Int))) (inputs : List (UID × UID)) (chans : Nat)
    (envs : List (List (Op Int) × Cuda.Sched)) (s : Cuda.State Int) (os : List (Cuda.Out Int)),
    CudaRun pops projs inputs chans envs s os → ∃ s', Cuda.run (Cuda.bootAll pops projs inputs chans) envs = .ok (s', os)

/-- C133 does not hold. -/
theorem C133_refuted : ¬ C133_statement := by
  intro h
  obtain ⟨s, hr⟩ := CudaEx.theRun
  obtain ⟨s', hs⟩ := h _ _ _ _ _ _ _ hr
  have : CudaEx.outs (Cuda.run (Cuda.bootAll CudaEx.pops CudaEx.projs CudaEx.inputs 1) CudaEx.envs) =
      CudaEx.outs (Cuda.run (Cuda.boot CudaEx.pops CudaEx.projs CudaEx.inputs 1) CudaEx.envs) := by rw [hs]; rfl
  revert this
  decide +kernel

/-- C133. `load_populations` and `load_projections` put the network on the device: in every step every population is computed from what it
is given. -/
theorem C133_loaded_partial (h : CudaRun pops projs inputs chans envs s os) (o : Cuda.Out F) (ho : o ∈ os) :
    o.given.length = pops.length ∧ o.spikes.length = pops.length ∧ o.heard.length = projs.length ∧
    s.dev.pops.map (·.uid) = pops.map (·.uid) ∧ s.dev.projs.map (·.ident.uid) = projs.map (·.1.uid) := by
  obtain ⟨k, hk⟩ := List.mem_iff_getElem?.1 ho
  obtain ⟨e0, hb⟩ := Cuda.boot_btw pops projs inputs chans h.apart h.fits
  have hst : (Cuda.boot pops projs inputs chans).step = 0 := rfl
  obtain ⟨l1, l2⟩ := Cuda.run_each envs _ _ _ e0 hb (by rw [hst, Nat.zero_add]; exact h.short) h.foreign s os h.ok
  have hkl : k < envs.length := by rw [← l1]; exact (List.getElem?_eq_some_iff.1 hk).1
  obtain ⟨s1, projs1, pending1, e1, s2, o1, q1, q2, q3, q4, q5, q6⟩ := l2 k envs[k].1 envs[k].2 (by rw [List.getElem?_eq_getElem hkl])
  rw [hk, Option.some.injEq] at q1
  subst q1
  have hs := Cuda.step_spec q2 (by rw [q3, hst]; have := h.short; omega) envs[k].1 (h.foreign _ (List.getElem_mem hkl)) envs[k].2
  rw [q6] at hs
  obtain ⟨a1, _⟩ := hs
  have e1 : s1.dev.pops.length = pops.length := by
    have := congrArg List.length q4
    rw [List.length_map, List.length_map] at this
    exact this
  have e2 : projs1.length = projs.length := by have := congrArg List.length q5; simpa using this
  obtain ⟨_, _, _, hrun⟩ := flow h
  obtain ⟨_, c2⟩ := Cuda.devRun_each _ _ _ _ _ _ _ hrun
  have gen : ∀ (envs : List (List (Op F) × Cuda.Sched)) (s s' : Cuda.State F) (os : List (Cuda.Out F)) (a : List (UID × Nat))
      (b : List (Delta.Ident × List (Delta.Syn F))), Cuda.Made a b s.dev → Cuda.run s envs = .ok (s', os) → Cuda.Made a b s'.dev := by
    intro envs
    induction envs with
    | nil => intro s s' os a b hm h; simp only [Cuda.run, Outcome.ok.injEq, Prod.mk.injEq] at h; rw [← h.1]; exact hm
    | cons x envs ih =>
      intro s s' os a b hm h
      obtain ⟨env, sc⟩ := x
      unfold Cuda.run at h
      cases h1 : Cuda.step sc { s with world := s.world.run env } with
      | throw w => rw [h1] at h; cases h
      | ub => rw [h1] at h; cases h
      | ok r =>
        obtain ⟨s1, o⟩ := r
        rw [h1] at h
        simp only at h
        cases h2 : Cuda.run s1 envs with
        | throw w => rw [h2] at h; cases h
        | ub => rw [h2] at h; cases h
        | ok q =>
          rw [h2] at h
          simp only [Outcome.ok.injEq, Prod.mk.injEq] at h
          rw [← h.1]
          exact ih s1 q.1 q.2 a b (Cuda.made_step (s := { s with world := s.world.run env }) hm h1) h2
  have hmade := gen envs _ _ _ (pops.map Cuda.Pop.shape) (projs.map (fun j => ((Cuda.Proj.make j.1 j.2).ident, (Cuda.Proj.make j.1 j.2).synapses)))
    ⟨rfl, by show (projs.map _).map _ = _; rw [List.map_map]; rfl, (by
      intro j hj m hm
      obtain ⟨j', _, rfl⟩ := List.mem_map.1 hj
      cases hm), (fun g hg => by cases hg)⟩ h.ok
  refine ⟨by rw [← e1, Cuda.forall₂_length a1.given], (c2 k o hk).2.2.2.2.1, by rw [← e2, Cuda.forall₂_length a1.heard], ?_, ?_⟩
  · have := congrArg (List.map Prod.fst) hmade.pops
    rw [List.map_map, List.map_map] at this
    exact this
  · have := congrArg (List.map (fun x => x.1.uid)) hmade.projs
    rw [List.map_map, List.map_map] at this
    exact this

/-! ## C141: late subscriptions -/

omit [Arith F] in
private theorem unload_mem (subs : List Cuda.Sub) (msgs : List (Cuda.GMsg F)) (order : List Nat) (k : MsgKind) (r : UID) (g : Cuda.GMsg F)
    (hg : g ∈ Cuda.unload subs msgs order k r) : ∃ sub ∈ subs, sub.kind = k ∧ sub.receiver = r ∧ g.body.kind = k ∧ g.body.sender ∈ sub.senders := by
  unfold Cuda.unload at hg
  split at hg
  · cases hg
  · rename_i sub hs
    have hm := (List.mem_filter.1 hg).2
    unfold Cuda.Sub.mine at hm
    simp only [Bool.and_eq_true, beq_iff_eq, List.contains_iff_mem] at hm
    have hkr : sub.kind = k ∧ sub.receiver = r := by
      have hl : Cuda.findSub subs k r < subs.length := (List.getElem?_eq_some_iff.1 hs).1
      have inv : ∀ (order : List Nat) (out : Nat), (∀ x, subs[out]? = some x → x.kind = k ∧ x.receiver = r) →
          ∀ x, subs[order.foldl (Cuda.findThread subs k r) out]? = some x → x.kind = k ∧ x.receiver = r := by
        intro order
        induction order with
        | nil => intro out h x hx; exact h x hx
        | cons i order ih =>
          intro out h x hx
          rw [List.foldl_cons] at hx
          refine ih _ ?_ x hx
          intro y hy
          unfold Cuda.findThread at hy
          cases hi : subs[i]? with
          | none => simp only [hi] at hy; exact h y hy
          | some z =>
            simp only [hi] at hy
            by_cases hc : (z.kind == k && z.receiver == r) = true
            · rw [if_pos hc, hi, Option.some.injEq] at hy
              rw [← hy]
              simpa using hc
            · rw [if_neg hc] at hy
              exact h y hy
      unfold Cuda.findSub Cuda.findKernel at hs
      by_cases h0 : subs.length = 0
      · rw [if_pos h0, List.length_eq_zero_iff.1 h0] at hs; cases hs
      · rw [if_neg h0] at hs
        exact inv _ _ (fun x hx => by rw [List.getElem?_eq_none (Nat.le_refl _)] at hx; cases hx) sub hs
    exact ⟨sub, List.mem_of_getElem? hs, hkr.1, hkr.2, by rw [hm.1, hkr.1], hm.2⟩

private theorem late_step {sc : Cuda.Sched} {s s' : Cuda.State F} {o : Cuda.Out F} (h : Cuda.step sc s = .ok (s', o)) (h0 : s.step ≠ 0) :
    s'.step = s.step + 1 ∧ s'.dev.subs = s.dev.subs ∧ s'.dev.projs.map (·.ident) = s.dev.projs.map (·.ident) ∧
    ∀ (b : Nat) (j : Cuda.Proj F) (x : List SpikeMessage) (m : SpikeMessage), s.dev.projs[b]? = some j → o.heard[b]? = some x → m ∈ x →
      ∃ sub ∈ s.dev.subs, sub.kind = .spike ∧ sub.receiver = j.ident.uid ∧ m.header.senderUid ∈ sub.senders := by
  unfold Cuda.step at h
  split at h
  · cases h
  · simp only at h
    rw [if_neg h0] at h
    split at h
    · cases h
    · split at h
      · cases h
      · cases h
      · rename_i d2 spikes hc
        simp only [Outcome.ok.injEq, Prod.mk.injEq] at h
        unfold Cuda.calcPops at hc
        split at hc
        · simp only [Outcome.ok.injEq, Prod.mk.injEq] at hc
          have hd2 : d2.subs = s.dev.subs := by rw [← hc.1]; rfl
          have hd2j : d2.projs = s.dev.projs := by rw [← hc.1]; rfl
          rw [← h.1, ← h.2]
          refine ⟨rfl, hd2, ?_, ?_⟩
          · show ((d2.projs.mapIdx _).map _).map _ = _
            rw [hd2j, List.map_map]
            refine List.ext_getElem? (fun i => ?_)
            simp only [List.getElem?_map, List.getElem?_mapIdx, Option.map_map]
            rfl
          · intro b j x m hj hx hm
            simp only at hx
            rw [List.getElem?_mapIdx, hd2j, hj, Option.map_some, Option.some.injEq] at hx
            rw [← hx] at hm
            unfold Cuda.heardBy Sys.spikesIn at hm
            obtain ⟨g, hg, he⟩ := List.mem_filterMap.1 hm
            obtain ⟨g', hg', rfl⟩ := List.mem_map.1 hg
            obtain ⟨sub, s1, s2, s3, s4, s5⟩ := unload_mem _ _ _ _ _ _ hg'
            rw [hd2] at s1
            refine ⟨sub, s1, s2, s3, ?_⟩
            cases hb : g'.body with
            | impact y => rw [hb] at he; cases he
            | spike y =>
              rw [hb] at he s5
              rw [← Option.some.inj he]
              exact s5
        · cases hc
        · cases hc

/-- C141. After the first step the subscriptions of the device never change, whatever the program calls (also on the backend's endpoint): a
projection is only ever given messages of senders it was subscribed to in the first step. -/
theorem C141_frozen_partial (envs : List (List (Op F) × Cuda.Sched)) : ∀ (s s' : Cuda.State F) (os : List (Cuda.Out F)), s.step ≠ 0 →
    Cuda.run s envs = .ok (s', os) → s'.dev.subs = s.dev.subs ∧
    ∀ o ∈ os, ∀ (b : Nat) (j : Cuda.Proj F) (x : List SpikeMessage) (m : SpikeMessage), s.dev.projs[b]? = some j →
      o.heard[b]? = some x → m ∈ x →
      ∃ sub ∈ s.dev.subs, sub.kind = .spike ∧ sub.receiver = j.ident.uid ∧ m.header.senderUid ∈ sub.senders := by
  induction envs with
  | nil =>
    intro s s' os _ h
    simp only [Cuda.run, Outcome.ok.injEq, Prod.mk.injEq] at h
    rw [← h.1, ← h.2]
    exact ⟨rfl, fun o ho => by cases ho⟩
  | cons x envs ih =>
    intro s s' os h0 h
    obtain ⟨env, sc⟩ := x
    unfold Cuda.run at h
    cases h1 : Cuda.step sc { s with world := s.world.run env } with
    | throw w => rw [h1] at h; cases h
    | ub => rw [h1] at h; cases h
    | ok r =>
      obtain ⟨s1, o⟩ := r
      rw [h1] at h
      simp only at h
      cases h2 : Cuda.run s1 envs with
      | throw w => rw [h2] at h; cases h
      | ub => rw [h2] at h; cases h
      | ok q =>
        rw [h2] at h
        simp only [Outcome.ok.injEq, Prod.mk.injEq] at h
        obtain ⟨a1, a2, a3, a4⟩ := late_step (s := { s with world := s.world.run env }) h1 h0
        simp only at a1 a2 a3 a4
        obtain ⟨b1, b2⟩ := ih s1 q.1 q.2 (by rw [a1]; omega) h2
        rw [← h.1, ← h.2]
        refine ⟨by rw [b1, a2], ?_⟩
        intro o' ho b j x m hj hx hm
        rcases List.mem_cons.1 ho with rfl | ho
        · exact a4 b j x m hj hx hm
        · have h3 : (s1.dev.projs.map (·.ident))[b]? = (s.dev.projs.map (·.ident))[b]? := by rw [a3]
          rw [List.getElem?_map, List.getElem?_map, hj] at h3
          cases h4 : s1.dev.projs[b]? with
          | none => rw [h4] at h3; cases h3
          | some j' =>
            rw [h4] at h3
            have h5 : j'.ident = j.ident := Option.some.inj h3
            have := b2 o' ho b j' x m h4 hx hm
            rw [a2, h5] at this
            exact this

/-- The full property: a subscription made with the backend's `subscribe` before a step has an effect in this step. -/
def C141_statement : Prop :=
  ∀ (pops : List (Cuda.Pop Int)) (projs : List (Delta.Ident × List (Delta.Syn Int))) (inputs : List (UID × UID))
    (envs : List (List (Op Int) × Cuda.Sched)) (s s' : Cuda.State Int) (os : List (Cuda.Out Int)) (o : Cuda.Out Int) (sc : Cuda.Sched)
    (b : Nat) (j : Delta.Ident × List (Delta.Syn Int)) (m : SpikeMessage),
    CudaRun pops projs inputs 1 envs s os → projs[b]? = some j →
    Cuda.step sc { s with world := s.world.run [.subscribe 0 .spike j.1.uid [m.header.senderUid], .send 1 (.spike m)] } = .ok (s', o) →
    m ∈ o.heard.getD b []

/-- A subscription made before the first step has an effect. -/
example : (CudaEx.outs (Cuda.run (Cuda.boot CudaEx.pops CudaEx.projs [] 1)
    [([.subscribe 0 .spike 20 [30], .send 1 (.spike ⟨⟨30, 0⟩, [0]⟩)], CudaEx.sc)])).map (·.heard) = [[[⟨⟨30, 0⟩, [0]⟩]]] := by
  decide +kernel

/-- C141 does not hold: the same subscription made before the second step has none. -/
theorem C141_refuted : ¬ C141_statement := by
  intro h
  obtain ⟨s, hs⟩ := CudaEx.run_outs (r := Cuda.run (Cuda.boot CudaEx.pops CudaEx.projs [] 1) [([], CudaEx.sc)]) (by decide +kernel)
  have hrun : CudaRun CudaEx.pops CudaEx.projs [] 1 [([], CudaEx.sc)] s _ := ⟨(fun i hi => by cases hi), CudaEx.fits, by simp, by decide, hs⟩
  have h2 : (Cuda.run (Cuda.boot CudaEx.pops CudaEx.projs [] 1) [([], CudaEx.sc),
    ([.subscribe 0 .spike 20 [30], .send 1 (.spike ⟨⟨30, 1⟩, [0]⟩)], CudaEx.sc)]).isOk = true := by decide +kernel
  obtain ⟨s2, hs2⟩ := CudaEx.run_outs h2
  have hcut : ∀ (s0 : Cuda.State Int) (x y : List (Op Int) × Cuda.Sched) (s1 s2 : Cuda.State Int) (os1 os2 : List (Cuda.Out Int)),
      Cuda.run s0 [x] = .ok (s1, os1) → Cuda.run s0 [x, y] = .ok (s2, os2) →
      ∃ o, Cuda.step y.2 { s1 with world := s1.world.run y.1 } = .ok (s2, o) ∧ os2 = os1 ++ [o] := by
    intro s0 x y s1 s2 os1 os2 r1 r2
    obtain ⟨e1, c1⟩ := x
    obtain ⟨e2, c2⟩ := y
    unfold Cuda.run at r1 r2
    cases q1 : Cuda.step c1 { s0 with world := s0.world.run e1 } with
    | throw w => rw [q1] at r1; cases r1
    | ub => rw [q1] at r1; cases r1
    | ok r =>
      rw [q1] at r1 r2
      simp only [Cuda.run, Outcome.ok.injEq, Prod.mk.injEq] at r1 r2
      rw [← r1.1, ← r1.2]
      cases q2 : Cuda.step c2 { r.1 with world := r.1.world.run e2 } with
      | throw w => rw [q2] at r2; cases r2
      | ub => rw [q2] at r2; cases r2
      | ok r' =>
        rw [q2] at r2
        simp only [Outcome.ok.injEq, Prod.mk.injEq] at r2
        rw [← r2.1, ← r2.2]
        exact ⟨r'.2, rfl, rfl⟩
  obtain ⟨o, ho, hos⟩ := hcut _ _ _ _ _ _ _ hs hs2
  have := h _ _ _ _ _ _ _ _ _ 0 _ ⟨⟨30, 1⟩, [0]⟩ hrun rfl ho
  have h3 : o = (CudaEx.outs (Cuda.run (Cuda.boot CudaEx.pops CudaEx.projs [] 1) [([], CudaEx.sc),
    ([.subscribe 0 .spike 20 [30], .send 1 (.spike ⟨⟨30, 1⟩, [0]⟩)], CudaEx.sc)])).getLastD ⟨[], [], [], [], []⟩ := by
    rw [hos]; simp
  rw [h3] at this
  revert this
  decide +kernel

end Knp.Props
