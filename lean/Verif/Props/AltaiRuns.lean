import Verif.Props.PopStep

/-!
# C180: a population of AltAI-LIF neurons never fails
-/

namespace Knp.Props
open Knp Knp.Neurons

variable {N F : Type}

/-! ## Vocabulary -/

/-- Consecutive steps of a population: the messages that are loaded in each step, the last state, the messages sent. -/
def popRun (k : Kind N F) (uid : UID) : Nat → List N → List (List (SynapticImpactMessage F)) →
    Outcome (List N × List (Option SpikeMessage))
  | _, pop, [] => .ok (pop, [])
  | step, pop, msgs :: rest => do
    let r ← stepPopulation k uid step pop msgs
    let s ← popRun k uid (step + 1) r.1 rest
    pure (s.1, r.2 :: s.2)

/-- The type and value of every impact in a history. -/
def Carried (hist : List (List (SynapticImpactMessage F))) (size : Nat) (good : OutputType → F → Prop) : Prop :=
  ∀ msgs ∈ hist, ∀ m ∈ msgs, ∀ x ∈ m.impacts,
    x.postsynapticNeuronIndex < size ∧ good x.synapseType x.impactValue

/-- An impact type that AltAI-LIF neurons know. -/
def AltaiKnows (ty : OutputType) : Prop := ty ≠ .inhibitoryConductance

/-- The least 64-bit integer. -/
def least64 : Int := -(2 ^ 63)

/-- Impacts that are fine for AltAI-LIF neurons: a known type and, for a blocking impact, a value that is a 64-bit
number of steps other than the least one (every `int64_t` but one is above it). -/
def AltaiGood [Arith F] (ty : OutputType) (v : F) : Prop :=
  AltaiKnows ty ∧ (ty = .blocking → ∃ z, Arith.toI64 v = some z ∧ least64 < z)

/-! ## Helpers -/

/-- A property of neurons that steps and good impacts keep. -/
private structure Kept (k : Kind N F) (I : N → Prop) (good : OutputType → F → Prop) : Prop where
  pre : ∀ n, I n → I (k.pre n)
  post : ∀ n, I n → I (k.post n).1
  imp : ∀ n (x : SynapticImpact F) b, I n → good x.synapseType x.impactValue → ∃ n', k.impact n x b = .ok n' ∧ I n'

private theorem fold_kept {k : Kind N F} {I : N → Prop} {good : OutputType → F → Prop} (hk : Kept k I good) :
    ∀ (l : List (SynapticImpact F × Bool)) (n : N), I n → (∀ x ∈ l, good x.1.synapseType x.1.impactValue) →
    ∃ n', l.foldlM (fun m i => k.impact m i.1 i.2) n = Outcome.ok n' ∧ I n' := by
  intro l
  induction l with
  | nil => intro n hn _; exact ⟨n, rfl, hn⟩
  | cons x rest ih =>
    intro n hn h
    obtain ⟨n1, h1, h2⟩ := hk.imp n x.1 x.2 hn (h x (List.mem_cons_self ..))
    obtain ⟨n2, h3, h4⟩ := ih n1 h2 (fun y hy => h y (List.mem_cons_of_mem _ hy))
    exact ⟨n2, by rw [List.foldlM_cons, h1]; exact h3, h4⟩

private theorem neuronStep_kept {k : Kind N F} {I : N → Prop} {good : OutputType → F → Prop} (hk : Kept k I good)
    (n : N) (l : List (SynapticImpact F × Bool)) (hn : I n) (h : ∀ x ∈ l, good x.1.synapseType x.1.impactValue) :
    ∃ r, neuronStep k n l = .ok r ∧ I r.1 := by
  obtain ⟨m, h1, h2⟩ := fold_kept hk l _ (hk.pre n hn) h
  exact ⟨k.post m, by unfold neuronStep; rw [h1]; rfl, hk.post m h2⟩

private theorem popStep_kept {k : Kind N F} {I : N → Prop} {good : OutputType → F → Prop} (hk : Kept k I good)
    (uid : UID) (step : Nat) (pop : List N) (msgs : List (SynapticImpactMessage F)) (hI : ∀ n ∈ pop, I n)
    (h : ∀ m ∈ msgs, ∀ x ∈ m.impacts, x.postsynapticNeuronIndex < pop.length ∧ good x.synapseType x.impactValue) :
    ∃ r, stepPopulation k uid step pop msgs = .ok r ∧ r.1.length = pop.length ∧ ∀ n ∈ r.1, I n := by
  have hadd : ∀ i, ∀ x ∈ addressed i msgs, good x.1.synapseType x.1.impactValue := by
    intro i x hx
    unfold addressed at hx
    simp only [List.mem_flatMap, List.mem_map, List.mem_filter] at hx
    obtain ⟨m, hm, y, ⟨hy, _⟩, rfl⟩ := hx
    exact (h m hm y hy).2
  have hok := (C55_total k uid step pop msgs).2 ⟨fun m hm x hx => (h m hm x hx).1, fun i n hn => by
    obtain ⟨r, h1, _⟩ := neuronStep_kept hk n _ (hI n (List.mem_of_getElem? hn)) (hadd i)
    rw [h1]; rfl⟩
  cases hs : stepPopulation k uid step pop msgs with
  | throw w => rw [hs] at hok; simp [Outcome.isOk] at hok
  | ub => rw [hs] at hok; simp [Outcome.isOk] at hok
  | ok r =>
    obtain ⟨hlen, sp, _, heach, _⟩ := C55_each_neuron k uid step pop r.1 msgs r.2 hs
    refine ⟨r, rfl, hlen, ?_⟩
    intro n hn
    obtain ⟨i, hi⟩ := List.mem_iff_getElem?.1 hn
    have hlt : i < pop.length := by rw [← hlen]; exact (List.getElem?_eq_some_iff.1 hi).1
    have hp : pop[i]? = some pop[i] := List.getElem?_eq_getElem hlt
    obtain ⟨n', b, e1, e2, _⟩ := heach i _ hp
    obtain ⟨r', e3, e4⟩ := neuronStep_kept hk pop[i] _ (hI _ (List.getElem_mem hlt)) (hadd i)
    rw [e1] at e3
    cases e3
    rw [hi] at e2
    cases e2
    exact e4

private theorem popRun_kept {k : Kind N F} {I : N → Prop} {good : OutputType → F → Prop} (hk : Kept k I good)
    (uid : UID) : ∀ (hist : List (List (SynapticImpactMessage F))) (step : Nat) (pop : List N), (∀ n ∈ pop, I n) →
    Carried hist pop.length good →
    ∃ r, popRun k uid step pop hist = .ok r ∧ r.1.length = pop.length ∧ r.2.length = hist.length ∧ ∀ n ∈ r.1, I n := by
  intro hist
  induction hist with
  | nil => intro step pop hI _; exact ⟨(pop, []), rfl, rfl, rfl, hI⟩
  | cons msgs rest ih =>
    intro step pop hI h
    obtain ⟨r, h1, h2, h3⟩ := popStep_kept hk uid step pop msgs hI (h msgs (List.mem_cons_self ..))
    obtain ⟨s, h4, h5, h6, h7⟩ := ih (step + 1) r.1 h3 (by
      rw [h2]; exact fun m hm => h m (List.mem_cons_of_mem _ hm))
    refine ⟨(s.1, r.2 :: s.2), ?_, by rw [h5, h2], by simp [h6], h7⟩
    unfold popRun
    rw [h1]
    simp only [Outcome.bind_ok]
    rw [h4]
    rfl

variable [Arith F]

private theorem least_eq : least64 = -(i64max + 1) := by decide +kernel

private theorem negative_activity (n : AltAi F) (b : Bool) : (altaiNegative n b).activity = n.activity := by
  unfold altaiNegative
  repeat' split
  all_goals rfl

private theorem fire_activity (n : AltAi F) : (altaiFire n).1.activity = n.activity := by
  unfold altaiFire
  repeat' split
  all_goals rfl

theorem altaiSafe_post (n : AltAi F) (h : least64 < n.activity) : least64 < (altaiPost n).1.activity := by
  unfold altaiPost
  dsimp only
  rw [negative_activity, fire_activity]
  unfold altaiTick altaiLeak
  dsimp only
  have hl : least64 < 0 := by decide +kernel
  have hm : least64 < i64max := by decide +kernel
  generalize least64 = q at *
  generalize i64max = w at *
  repeat' split
  all_goals omega

theorem altaiSafe_impact (n : AltAi F) (x : SynapticImpact F) (b : Bool) (h : least64 < n.activity)
    (hg : AltaiGood x.synapseType x.impactValue) : ∃ n', altaiImpact n x b = .ok n' ∧ least64 < n'.activity := by
  obtain ⟨hk, hb⟩ := hg
  unfold altaiImpact
  cases ht : x.synapseType with
  | excitatory => exact ⟨_, rfl, h⟩
  | inhibitoryCurrent => exact ⟨_, rfl, h⟩
  | dopamine => exact ⟨_, rfl, h⟩
  | inhibitoryConductance => exact absurd ht hk
  | blocking =>
    obtain ⟨z, hz, hz2⟩ := hb ht
    dsimp only
    rw [hz]
    have hne : ¬ n.activity = -(i64max + 1) := by rw [← least_eq]; omega
    by_cases h1 : (decide (n.activity < 0) != Arith.signbit x.impactValue) = true
    · rw [if_pos h1]; exact ⟨_, rfl, hz2⟩
    · rw [if_neg h1, if_neg hne]
      by_cases h2 : Arith.le (Arith.ofInt n.activity.natAbs) (Arith.abs x.impactValue) = true
      · rw [if_pos h2]; exact ⟨_, rfl, hz2⟩
      · rw [if_neg h2]; exact ⟨_, rfl, h⟩

private theorem altai_kept : Kept (altai (F := F)) (fun n => least64 < n.activity) AltaiGood :=
  ⟨fun _ h => h, altaiSafe_post, altaiSafe_impact⟩

private theorem resAltai_kept : Kept (resAltai (F := F)) (fun n => least64 < n.base.activity) AltaiGood := by
  refine ⟨fun _ h => h, fun n h => altaiSafe_post n.base h, fun n x b h hg => ?_⟩
  obtain ⟨m, h1, h2⟩ := altaiSafe_impact n.base x b h hg
  refine ⟨{ base := m, rule := if x.synapseType = .excitatory then { n.rule with forced := n.rule.forced || b }
                 else n.rule }, ?_, h2⟩
  show resAltaiImpact n x b = _
  unfold resAltaiImpact
  rw [h1]
  rfl

/-! ## C180 -/

/-- C180: a population of AltAI-LIF neurons whose activity times are not the least 64-bit integer, fed with any number
of steps of any messages whose impacts are addressed to its neurons, are of a known type and, if blocking, are a 64-bit
number of steps other than the least one, runs without error or undefined behaviour, keeps its size, answers in every
step, and can be fed again. -/
theorem C180_altai_partial (uid : UID) (step : Nat) (pop : List (AltAi F)) (hist : List (List (SynapticImpactMessage F)))
    (hpop : ∀ n ∈ pop, least64 < n.activity) (hc : Carried hist pop.length AltaiGood) :
    ∃ pop' sent, popRun altai uid step pop hist = .ok (pop', sent) ∧ pop'.length = pop.length ∧
      sent.length = hist.length ∧ ∀ n ∈ pop', least64 < n.activity := by
  obtain ⟨r, h1, h2, h3, h4⟩ := popRun_kept altai_kept uid hist step pop hpop hc
  exact ⟨r.1, r.2, h1, h2, h3, h4⟩

/-- C180, the synaptic-resource variant. -/
theorem C180_resource_partial (uid : UID) (step : Nat) (pop : List (Res (AltAi F) F))
    (hist : List (List (SynapticImpactMessage F)))
    (hpop : ∀ n ∈ pop, least64 < n.base.activity) (hc : Carried hist pop.length AltaiGood) :
    ∃ pop' sent, popRun resAltai uid step pop hist = .ok (pop', sent) ∧ pop'.length = pop.length ∧
      sent.length = hist.length ∧ ∀ n ∈ pop', least64 < n.base.activity := by
  obtain ⟨r, h1, h2, h3, h4⟩ := popRun_kept resAltai_kept uid hist step pop hpop hc
  exact ⟨r.1, r.2, h1, h2, h3, h4⟩

/-- C180: conversely, one impact of inhibitory-conductance type or one impact to a neuron that is not there ends the
run. -/
theorem C180_needed (uid : UID) (step : Nat) (pop : List (AltAi F)) (hist : List (List (SynapticImpactMessage F)))
    (h : (popRun altai uid step pop hist).isOk = true) :
    Carried hist pop.length (fun ty _ => AltaiKnows ty) := by
  induction hist generalizing step pop with
  | nil => intro m hm; cases hm
  | cons msgs rest ih =>
    unfold popRun at h
    cases hs : stepPopulation altai uid step pop msgs with
    | throw w => rw [hs] at h; simp [Outcome.isOk] at h
    | ub => rw [hs] at h; simp [Outcome.isOk] at h
    | ok r =>
      rw [hs] at h
      simp only [Outcome.bind_ok] at h
      obtain ⟨hlen, _⟩ := C55_each_neuron altai uid step pop r.1 msgs r.2 hs
      have hrest : (popRun altai uid (step + 1) r.1 rest).isOk = true := by
        cases hr : popRun altai uid (step + 1) r.1 rest with
        | throw w => rw [hr] at h; simp [Outcome.isOk] at h
        | ub => rw [hr] at h; simp [Outcome.isOk] at h
        | ok s => rfl
      have ih' := ih (step + 1) r.1 hrest
      rw [hlen] at ih'
      obtain ⟨g1, g2⟩ := (C55_total altai uid step pop msgs).1 (by rw [hs]; rfl)
      intro m hm
      rcases List.mem_cons.1 hm with rfl | hm
      · intro y hy x hx
        refine ⟨g1 y hy x hx, fun hty => ?_⟩
        have hlt := g1 y hy x hx
        have hn := g2 _ _ (List.getElem?_eq_getElem hlt)
        have hmem : (x, y.isForcing) ∈ addressed x.postsynapticNeuronIndex m := by
          unfold addressed
          simp only [List.mem_flatMap, List.mem_map, List.mem_filter]
          exact ⟨y, hy, x, ⟨hx, by simp⟩, rfl⟩
        have hfold : ∀ (l : List (SynapticImpact F × Bool)) (n : AltAi F), (x, y.isForcing) ∈ l →
            (l.foldlM (fun m i => (altai (F := F)).impact m i.1 i.2) n).isOk = true → False := by
          intro l
          induction l with
          | nil => intro n hm; cases hm
          | cons z l ihl =>
            intro n hm hok
            rw [List.foldlM_cons] at hok
            rcases List.mem_cons.1 hm with rfl | hm
            · have : (altai (F := F)).impact n x y.isForcing = .throw "Unhandled synapse type." := by
                show altaiImpact n x y.isForcing = _
                unfold altaiImpact
                rw [hty]
              rw [this] at hok
              simp [Outcome.isOk] at hok
            · cases hz : (altai (F := F)).impact n z.1 z.2 with
              | throw w => rw [hz] at hok; simp [Outcome.isOk] at hok
              | ub => rw [hz] at hok; simp [Outcome.isOk] at hok
              | ok n1 => rw [hz] at hok; exact ihl n1 hm hok
        unfold neuronStep at hn
        refine hfold _ ((altai (F := F)).pre pop[x.postsynapticNeuronIndex]) hmem ?_
        cases hf : (addressed x.postsynapticNeuronIndex m).foldlM (fun m i => (altai (F := F)).impact m i.1 i.2)
            ((altai (F := F)).pre pop[x.postsynapticNeuronIndex]) with
        | throw w => rw [hf] at hn; simp [Outcome.isOk] at hn
        | ub => rw [hf] at hn; simp [Outcome.isOk] at hn
        | ok q => rfl
      · exact ih' m hm

/-- C180, full statement: known types, targets in range and blocking values that are 64-bit numbers are enough. -/
def C180_statement : Prop :=
  ∀ (pop : List (AltAi Int)) (hist : List (List (SynapticImpactMessage Int))),
    (∀ n ∈ pop, least64 < n.activity) →
    Carried hist pop.length (fun ty v => AltaiKnows ty ∧ (ty = .blocking → ∃ z, Arith.toI64 v = some z)) →
    (popRun altai 1 0 pop hist).isOk = true

namespace AltaiRunsEx

def neuron : AltAi Int := ⟨false, true, false, true, false, 0, 0, 5, 10, 0, 0, 0, 0, 3⟩
def impact (ty : OutputType) (v : Int) (i : Nat) : SynapticImpact Int :=
  { connectionIndex := 0, impactValue := v, synapseType := ty, presynapticNeuronIndex := 0, postsynapticNeuronIndex := i }
def message (l : List (SynapticImpact Int)) : SynapticImpactMessage Int :=
  { header := ⟨2, 0⟩, postsynapticPopulationUid := 1, presynapticPopulationUid := 3, isForcing := false, impacts := l }
def hist : List (List (SynapticImpactMessage Int)) :=
  [[message [impact .blocking (-10) 0, impact .excitatory 7 1]], [], [message [impact .excitatory 9 0, impact .dopamine 2 1]]]

end AltaiRunsEx

/-- C180 is false as stated: two blocking impacts of the least 64-bit value in one message.  The first is stored, the
second takes `std::abs` of it. -/
theorem C180_refuted : ¬ C180_statement := by
  intro h
  have := h [AltaiRunsEx.neuron] [[AltaiRunsEx.message
    [AltaiRunsEx.impact .blocking least64 0, AltaiRunsEx.impact .blocking least64 0]]]
    (by intro n hn; rw [List.mem_singleton.1 hn]; decide +kernel)
    (by
      intro msgs hm m hmm x hx
      rw [List.mem_singleton] at hm; subst hm
      rw [List.mem_singleton] at hmm; subst hmm
      have hx' : x = AltaiRunsEx.impact .blocking least64 0 := by
        simpa [AltaiRunsEx.message] using hx
      subst hx'
      exact ⟨by decide, (by intro h; cases h), fun _ => ⟨least64, by decide +kernel⟩⟩)
  exact absurd this (by decide +kernel)

/-- The hypotheses of `C180_altai_partial` hold for a blocked neuron and a firing one, and the second fires. -/
example : (∀ n ∈ [AltaiRunsEx.neuron, AltaiRunsEx.neuron], least64 < n.activity) ∧
    Carried AltaiRunsEx.hist 2 AltaiGood ∧
    (∃ p, popRun altai 1 0 [AltaiRunsEx.neuron, AltaiRunsEx.neuron] AltaiRunsEx.hist =
      .ok (p, [some ⟨⟨1, 0⟩, [1]⟩, none, none])) := by
  refine ⟨fun n hn => ?_, ?_, ?_⟩
  · have : n = AltaiRunsEx.neuron := by simpa using hn
    rw [this]; decide +kernel
  · intro msgs hm m hmm x hx
    simp only [AltaiRunsEx.hist, List.mem_cons, List.not_mem_nil, or_false] at hm
    rcases hm with rfl | rfl | rfl
    all_goals simp only [List.mem_cons, List.not_mem_nil, or_false] at hmm
    all_goals subst hmm
    all_goals simp only [AltaiRunsEx.message, List.mem_cons, List.not_mem_nil, or_false] at hx
    all_goals rcases hx with rfl | rfl
    · exact ⟨by decide, (by intro h; cases h), fun _ => ⟨-10, by decide +kernel, by decide +kernel⟩⟩
    all_goals exact ⟨by decide, (by intro h; cases h), fun h => by cases h⟩
  · exact ⟨_, by rfl⟩

end Knp.Props
