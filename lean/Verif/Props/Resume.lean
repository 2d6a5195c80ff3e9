import Verif.Lemmas.Resume
import Verif.Props.Learn

/-! # C164: carrying on with a copy of a running network -/

namespace Knp.Props
open Knp Knp.Bus Knp.Spec Knp.Neurons Knp.Stdp Knp.Lemmas.Resume

variable {N F : Type}

/-- Every spike the projections heard in the steps `os` has been given to its target neurons in one of these steps: it was
heard in step `T` and the delay of the synapse was over before the last of them. -/
def AllArrived (projs : List (Delta.Ident × Delta.Proj F)) (os : List (Sys.StepOut F)) : Prop :=
  ∀ (T : Nat) (h : T < os.length), ∀ j ∈ projs, ∀ m ∈ heardBy os[T] j.1.uid, ∀ a ∈ m.neuronIndexes,
    ∀ y ∈ j.2.synapses, y.source = a → T + y.delay < os.length

/-- C164 (part: nothing on its way).  Run a network, take a copy of it (`get_network_copy`) and run the copy in a new backend
with the same inputs: if every spike of the first run has already arrived, the two runs together do what one uninterrupted run does, in every
step and to every neuron, except that the second run counts its steps from 0. They also fail together.  Any network of populations that are
not trained and delta projections with positive delays, any calls of the rest of the program, any number of channels before and after, as
long as the messages sent to the second run are those sent to the uninterrupted one.  Missing: spikes still on their way
(`C164_refuted`) and networks that learn (`C164_learning_refuted`). -/
theorem C164_resume_partial (pops : List (Sys.PopSt N F)) (projs : List (Delta.Ident × Delta.Proj F)) (inputs : List (UID × UID))
    (chans chans' : Nat) (hnp : (pops.map (·.uid)).Nodup) (hnj : (projs.map (·.1.uid)).Nodup) (envs1 envs2 envs2' : List (Sys.Env F))
    (hf1 : ∀ env ∈ envs1 ++ envs2, ∀ op ∈ env, Foreign chans op) (hf2 : ∀ env ∈ envs2', ∀ op ∈ env, Foreign chans' op)
    (hsame : envs2.map (extOf chans) = envs2'.map (fun e => (extOf chans' e).map (laterM envs1.length)))
    (hfind : ∀ i ∈ projs, ExactFind i.2)
    (htime : ∀ i ∈ projs, ∀ y ∈ i.2.synapses, 1 ≤ y.delay ∧ envs1.length + envs2.length + y.delay < two64)
    (s1 : Sys.State N F) (os1 : List (Sys.StepOut F))
    (hrun : Sys.runSingle (Sys.boot pops projs inputs chans) envs1 = .ok (s1, os1)) (harr : AllArrived projs os1) :
    visible (Sys.runSingle (Sys.boot pops projs inputs chans) (envs1 ++ envs2)) =
      continued os1 (visible (Sys.runSingle (Sys.resume s1 inputs chans') envs2')) := by
  have hd1 := C104_dataflow pops projs inputs chans hnp hnj envs1 (fun e he => hf1 e (List.mem_append_left _ he))
  have hd := C104_dataflow pops projs inputs chans hnp hnj (envs1 ++ envs2) hf1
  rw [hrun] at hd1
  simp only [visible] at hd1
  have hlen := flowRun_length _ _ _ _ _ _ _ hd1.symm
  rw [List.length_map] at hlen
  have hempty := run_empty envs1.length _ 0 pops (projs.map fun j => ⟨j.1, j.2, []⟩) [] _ _ hd1.symm (by simp)
    (by
      intro j hj y hy
      obtain ⟨i, hi, rfl⟩ := List.mem_map.1 hj
      have := htime i hi y hy
      omega)
    (by intro j hj; obtain ⟨i, hi, rfl⟩ := List.mem_map.1 hj; exact hfind i hi)
    (by intro j hj; obtain ⟨i, hi, rfl⟩ := List.mem_map.1 hj; intro e he; cases he)
    (by simp)
    (by
      intro T hT j hj
      obtain ⟨i, hi, rfl⟩ := List.mem_map.1 hj
      intro m hm a ha y hy hsrc
      have := harr T hT i hi m hm a ha y hy hsrc
      dsimp only at *
      omega)
  obtain ⟨hlast, hqueue, hsyn⟩ := hempty
  dsimp only at hqueue hsyn
  have hsyn' : s1.projs.map (fun j => (j.ident, j.proj)) = projs := by
    rw [hsyn, List.map_map]
    exact List.map_id _
  have hprojs : s1.projs = projs.map fun j => ⟨j.1, j.2, []⟩ := by
    conv_rhs => rw [← hsyn']
    rw [List.map_map]
    conv_lhs => rw [← List.map_id s1.projs]
    apply List.map_congr_left
    intro j hj
    have := hqueue j hj
    cases j
    simp only at this
    subst this
    rfl
  have hpu : s1.pops.map (·.uid) = pops.map (·.uid) := by
    have hd0 := hd1.symm
    clear hd hd1 hsame hf1 hf2 hrun hlen hlast hqueue hsyn hsyn' hprojs harr hnp htime
    revert hd0
    generalize (envs1.map (extOf chans)) = exts
    generalize (0 : Nat) = t
    generalize (projs.map fun j => (⟨j.1, j.2, []⟩ : Sys.ProjSt F)) = js
    generalize ([] : List (SynapticImpactMessage F)) = pend
    induction exts generalizing t pops js pend os1 with
    | nil =>
      intro h
      simp only [flowRun, Outcome.ok.injEq, Prod.mk.injEq] at h
      rw [h.1.1]
    | cons ext exts ih =>
      intro h
      unfold flowRun at h
      cases hfs : flowStep (hearingOf projs inputs) t pops js pend ext with
      | throw w => rw [hfs] at h; cases h
      | ub => rw [hfs] at h; cases h
      | ok x =>
        obtain ⟨st1, o⟩ := x
        rw [hfs] at h
        dsimp only at h
        cases hr : flowRun (hearingOf projs inputs) (t + 1) st1.1 st1.2 o.impacts exts with
        | throw w => rw [hr] at h; cases h
        | ub => rw [hr] at h; cases h
        | ok y =>
          obtain ⟨st2, os'⟩ := y
          rw [hr] at h
          simp only [Outcome.ok.injEq, Prod.mk.injEq] at h
          obtain ⟨h1, _⟩ := h
          subst h1
          have := ih st1.1 os' (t + 1) st1.2 o.impacts hr
          rw [this]
          unfold flowStep at hfs
          simp only at hfs
          cases hfp : flowPops t (fun r => (pend ++ Sys.impactsIn ext).filter
              (fun m => (hearingOf projs inputs).impact r m.header.senderUid)) pops with
          | throw w => rw [hfp] at hfs; cases hfs
          | ub => rw [hfp] at hfs; cases hfs
          | ok z =>
            rw [hfp] at hfs
            simp only [Outcome.ok.injEq, Prod.mk.injEq] at hfs
            rw [← hfs.1]
            exact Sys.flowPops_uids _ _ _ _ _ hfp
  have hd2 := C104_dataflow s1.pops (s1.projs.map (fun j => (j.ident, j.proj))) inputs chans' (by rw [hpu]; exact hnp)
    (by rw [hsyn']; exact hnj) envs2' hf2
  rw [hsyn'] at hd2
  have hres : Sys.resume s1 inputs chans' = Sys.boot s1.pops projs inputs chans' := by
    unfold Sys.resume Sys.networkNow
    rw [hsyn']
  rw [hd, hres, hd2, List.map_append, flowRun_append, ← hd1]
  dsimp only
  rw [hlast, hprojs, List.length_map, hsame]
  have hl : (projs.map fun j => (⟨j.1, j.2, []⟩ : Sys.ProjSt F)).map (laterJ envs1.length) =
      projs.map fun j => ⟨j.1, j.2, []⟩ := by
    rw [List.map_map]; rfl
  have hlater := flowRun_later (hearingOf projs inputs) envs1.length (envs2'.map (extOf chans')) 0 s1.pops
    (projs.map fun j => ⟨j.1, j.2, []⟩) []
    (by
      intro j hj y hy
      obtain ⟨i, hi, rfl⟩ := List.mem_map.1 hj
      have h2 := congrArg List.length hsame
      rw [List.length_map, List.length_map] at h2
      have := htime i hi y hy
      rw [List.length_map]
      omega)
  rw [hl, List.map_map] at hlater
  show (match flowRun _ (0 + envs1.length) s1.pops _ ([].map (laterI envs1.length)) (envs2'.map
    ((fun x => x.map (laterM envs1.length)) ∘ extOf chans')) with | .ok (st', os') => _ | .throw w => _ | .ub => _) = _
  rw [hlater]
  cases flowRun (hearingOf projs inputs) 0 s1.pops (projs.map fun j => ⟨j.1, j.2, []⟩) [] (envs2'.map (extOf chans')) with
  | throw w => rfl
  | ub => rfl
  | ok x =>
    obtain ⟨st, os⟩ := x
    simp only [laterR, continued, hlen]

/-- C164 in full, for networks without training: whenever the copy is taken. -/
def C164_statement : Prop :=
  ∀ (pops : List (Sys.PopSt (Lif Int) Int)) (projs : List (Delta.Ident × Delta.Proj Int)) (inputs : List (UID × UID))
    (chans : Nat), (pops.map (·.uid)).Nodup → (projs.map (·.1.uid)).Nodup → ∀ (envs1 envs2 envs2' : List (Sys.Env Int)),
    (∀ env ∈ envs1 ++ envs2, ∀ op ∈ env, Foreign chans op) → (∀ env ∈ envs2', ∀ op ∈ env, Foreign chans op) →
    envs2.map (extOf chans) = envs2'.map (fun e => (extOf chans e).map (laterM envs1.length)) →
    (∀ i ∈ projs, ExactFind i.2) →
    (∀ i ∈ projs, ∀ y ∈ i.2.synapses, 1 ≤ y.delay ∧ envs1.length + envs2.length + y.delay < two64) →
    ∀ (s1 : Sys.State (Lif Int) Int) (os1 : List (Sys.StepOut Int)),
    Sys.runSingle (Sys.boot pops projs inputs chans) envs1 = .ok (s1, os1) →
    visible (Sys.runSingle (Sys.boot pops projs inputs chans) (envs1 ++ envs2)) =
      continued os1 (visible (Sys.runSingle (Sys.resume s1 inputs chans) envs2'))

namespace ResumeEx

/-- A neuron with threshold 5. -/
def neuron : Lif Int := ⟨0, 0, 5, 1, 0, 1⟩
/-- Two populations. -/
def pops : List (Sys.PopSt (Lif Int) Int) := [⟨1, lif, [neuron, neuron]⟩, ⟨2, lif, [neuron]⟩]
/-- The lookup of the projections. -/
def find (n : Nat) : List Nat := if n = 0 then [0] else if n = 1 then [1] else []
/-- The channel (UID 50) drives population 1, which drives population 2; delays 1 and 2. -/
def projs : List (Delta.Ident × Delta.Proj Int) :=
  [(⟨10, 0, 1, false⟩, ⟨[⟨0, 0, 9, 1, .excitatory⟩, ⟨1, 1, 9, 1, .excitatory⟩], find⟩),
   (⟨20, 1, 2, false⟩, ⟨[⟨0, 0, 3, 1, .excitatory⟩, ⟨1, 0, 9, 2, .excitatory⟩], find⟩)]
/-- The channel sends before the given step; then `k` steps without a message. -/
def envs (t k : Nat) : List (Sys.Env Int) := [.send 1 (.spike ⟨⟨50, t⟩, [0, 1]⟩)] :: List.replicate k []
/-- The uninterrupted run. -/
def whole (k : Nat) := Sys.runSingle (Sys.boot pops projs [(10, 50)] 1) (envs 0 k ++ envs (k + 1) 4)
/-- The first part of it. -/
def first (k : Nat) := Sys.runSingle (Sys.boot pops projs [(10, 50)] 1) (envs 0 k)
/-- The copy, run in a new backend. -/
def second (k : Nat) : Outcome (Sys.State (Lif Int) Int × List (Sys.StepOut Int)) :=
  match first k with
  | .ok (s, _) => Sys.runSingle (Sys.resume s [(10, 50)] 1) (envs 0 4)
  | .throw w => .throw w
  | .ub => .ub
/-- What the steps did. -/
def outs : Outcome (Sys.State (Lif Int) Int × List (Sys.StepOut Int)) → List (Sys.StepOut Int)
  | .ok r => r.2
  | _ => []
/-- Spikes of the steps. -/
def fired (x : Outcome (Sys.State (Lif Int) Int × List (Sys.StepOut Int))) : List (List (UID × Nat × List Nat)) :=
  (outs x).map (fun o => o.spikes.map (fun m => (m.header.senderUid, m.header.sendTime, m.neuronIndexes)))

theorem exactFind : ∀ i ∈ projs, ExactFind i.2 := by
  intro i hi n
  simp only [projs, List.mem_cons, List.not_mem_nil, or_false] at hi
  rcases hi with rfl | rfl
  all_goals
    simp only [find]
    by_cases h0 : n = 0
    · subst h0
      refine ⟨by simp, fun k => ?_⟩
      rcases k with _ | _ | k <;> simp
    · by_cases h1 : n = 1
      · subst h1
        refine ⟨by simp, fun k => ?_⟩
        rcases k with _ | _ | k <;> simp
      · refine ⟨by simp [h0, h1], fun k => ?_⟩
        rcases k with _ | _ | k <;> simp [h0, h1] <;> omega

theorem timely : ∀ i ∈ projs, ∀ y ∈ i.2.synapses, 1 ≤ y.delay ∧ 100 + y.delay < two64 := by decide +kernel

theorem foreign (t k : Nat) : ∀ env ∈ envs t k, ∀ op ∈ env, Foreign 1 op := by
  intro env he op hop
  rcases List.mem_cons.1 he with rfl | he
  · rw [List.mem_singleton.1 hop]; exact ⟨by omega, by omega⟩
  · rw [(List.mem_replicate.1 he).2] at hop; cases hop

/-- The copy taken after five steps: the first spikes have arrived, population 2 has fired; the second run is the rest of the
uninterrupted one. -/
example : (first 4).isOk = true ∧ fired (first 4) = [[], [(1, 1, [0, 1])], [], [(2, 3, [0])], []] := by decide +kernel
example : fired (whole 4) = [[], [(1, 1, [0, 1])], [], [(2, 3, [0])], [], [], [(1, 6, [0, 1])], [], [(2, 8, [0])], []] := by
  decide +kernel
example : fired (second 4) = [[], [(1, 1, [0, 1])], [], [(2, 3, [0])], []] := by decide +kernel
example : AllArrived projs (outs (first 4)) := by unfold AllArrived; decide +kernel
example : (envs 5 4).map (extOf 1) = (envs 0 4).map (fun e => (extOf 1 e).map (laterM 5)) := by decide +kernel
/-- Taken one step earlier, with nothing but a spike of population 2 newly sent, it still holds. -/
example : AllArrived projs (outs (first 3)) ∧ ¬ AllArrived projs (outs (first 2)) := by
  unfold AllArrived
  decide +kernel

end ResumeEx

/-- C164 fails when a spike is on its way: a copy taken after two steps does not contain the spike population 1 has just sent, so
population 2 never fires in the second run before the new input arrives. -/
theorem C164_refuted : ¬ C164_statement := by
  intro h
  have hok : (ResumeEx.first 1).isOk = true := by decide +kernel
  cases hr : ResumeEx.first 1 with
  | throw w => rw [hr] at hok; cases hok
  | ub => rw [hr] at hok; cases hok
  | ok x =>
    have hmem : ∀ env ∈ ResumeEx.envs 0 1 ++ ResumeEx.envs 2 4, ∀ op ∈ env, Foreign 1 op := by
      intro env he
      rcases List.mem_append.1 he with he | he
      · exact ResumeEx.foreign _ _ env he
      · exact ResumeEx.foreign _ _ env he
    have := h ResumeEx.pops ResumeEx.projs [(10, 50)] 1 (by decide) (by decide) (ResumeEx.envs 0 1) (ResumeEx.envs 2 4)
      (ResumeEx.envs 0 4) hmem (ResumeEx.foreign _ _) (by decide +kernel) ResumeEx.exactFind
      (fun i hi y hy => by
        have := ResumeEx.timely i hi y hy
        refine ⟨this.1, ?_⟩
        have h2 := this.2
        have : (ResumeEx.envs 0 1).length + (ResumeEx.envs 2 4).length = 7 := rfl
        rw [this]
        revert h2
        generalize two64 = b
        omega)
      x.1 x.2 hr
    have e1 : ResumeEx.second 1 = Sys.runSingle (Sys.resume x.1 [(10, 50)] 1) (ResumeEx.envs 0 4) := by
      unfold ResumeEx.second; rw [hr]
    rw [← e1] at this
    have hx : x.2 = ResumeEx.outs (ResumeEx.first 1) := by rw [hr]; rfl
    rw [hx] at this
    have key : ∀ r : Outcome (Sys.State (Lif Int) Int × List (Sys.StepOut Int)), ∀ r', visible r =
        continued (ResumeEx.outs (ResumeEx.first 1)) (visible r') → r.isOk = true → r'.isOk = true →
        ResumeEx.outs r = ResumeEx.outs (ResumeEx.first 1) ++ (ResumeEx.outs r').map (laterO (ResumeEx.outs (ResumeEx.first 1)).length) := by
      intro r r' hv h1 h2
      cases r with
      | throw w => cases h1
      | ub => cases h1
      | ok a =>
        cases r' with
        | throw w => cases h2
        | ub => cases h2
        | ok b =>
          simp only [visible, continued, Outcome.ok.injEq, Prod.mk.injEq] at hv
          exact hv.2
    have k := key (ResumeEx.whole 1) (ResumeEx.second 1) this (by decide +kernel) (by decide +kernel)
    have k2 := congrArg (fun l : List (Sys.StepOut Int) => l.map (fun o => o.spikes)) k
    revert k2
    decide +kernel

/-! ## Networks that learn -/

namespace ResumeEx

/-- The backend of a learning network. -/
abbrev LState := Learn.State (Learn.Pop (Lif ℚ) (Blifat ℚ) ℚ) (Learn.Proj ℚ) ℚ
/-- One trained population. -/
def lpops : List (Learn.Pop (Lif ℚ) (Blifat ℚ) ℚ) :=
  [.trained 2 (@resBlifat ℚ LearnEx.arith) blifatOps [⟨LearnEx.blifat, StdpEx.rule 0⟩]]
/-- Driven by a channel through a projection of resource synapses. -/
def lprojs : List (Learn.Proj ℚ) := [⟨⟨10, 0, 2, false⟩, false, .resource [] LearnEx.syns LearnEx.pre LearnEx.post, []⟩]
/-- The first five steps. -/
def lenvs1 : List (Sys.Env ℚ) := [[.send 1 (.spike ⟨⟨50, 0⟩, [0, 1]⟩)], [], [], [], []]
/-- Five further steps from step `t` on. -/
def lenvs2 (t : Nat) : List (Sys.Env ℚ) :=
  [[.send 1 (.spike ⟨⟨50, t⟩, [0, 1]⟩)], [.send 1 (.spike ⟨⟨50, t + 1⟩, [0, 1]⟩)], [], [], []]
/-- A run of the network. -/
def lrun (envs : List (Sys.Env ℚ)) : Outcome (LState × List (Sys.StepOut ℚ)) :=
  Learn.runSingle (Learn.machine StdpEx.o) (Learn.boot (Learn.machine StdpEx.o) lpops lprojs [(10, 50)] 1) envs
/-- The copy taken after the first five steps, run in a new backend. -/
def lsecond : Outcome (LState × List (Sys.StepOut ℚ)) :=
  match lrun lenvs1 with
  | .ok (s, _) => Learn.runSingle (Learn.machine StdpEx.o) (Learn.resume StdpEx.o s [(10, 50)] 1) (lenvs2 0)
  | .throw w => .throw w
  | .ub => .ub
/-- The weights in the impacts of each step. -/
def limpacts (x : Outcome (LState × List (Sys.StepOut ℚ))) : List (List (List ℚ)) :=
  (LearnEx.outs x).map (fun o => o.impacts.map (fun m => m.impacts.map (·.impactValue)))
/-- Nothing waits in a projection. -/
def idle (x : Outcome (LState × List (Sys.StepOut ℚ))) : Bool := (LearnEx.final x).all (fun j => j.queue.isEmpty)

end ResumeEx

/-- C164 fails for a network that learns even with nothing on its way: neurons and synapses remember in which step they last spiked, the
new backend counts from 0, and the copy learns other weights than the uninterrupted network.  The copy is taken after five steps, the
last two without spikes and impacts; the first message of the seventh step is the first to differ. -/
theorem C164_learning_refuted :
    ResumeEx.idle (ResumeEx.lrun ResumeEx.lenvs1) = true ∧
    ((LearnEx.outs (ResumeEx.lrun ResumeEx.lenvs1)).drop 3).map (fun o => (o.spikes, o.impacts)) = [([], []), ([], [])] ∧
    (ResumeEx.lenvs2 5).map (extOf 1) = (ResumeEx.lenvs2 0).map (fun e => (extOf 1 e).map (laterM 5)) ∧
    (ResumeEx.limpacts (ResumeEx.lrun (ResumeEx.lenvs1 ++ ResumeEx.lenvs2 5))).drop 5 =
      [[[60 / 31]], [[84 / 37, 2]], [[44 / 19]], [], []] ∧
    ResumeEx.limpacts ResumeEx.lsecond = [[[60 / 31]], [[84 / 37, 28 / 15]], [[44 / 19]], [], []] := by
  refine ⟨?_, ?_, ?_, ?_, ?_⟩ <;> decide +kernel

end Knp.Props
