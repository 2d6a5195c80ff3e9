import Verif.Lemmas.CudaMore

/-! # C134, C142, C143: populations and devices of the CUDA backend -/

namespace Knp.Props
open Knp Knp.Spec Knp.Neurons

variable {F : Type} [Arith F]

/-! ## C134: a population on the device and on the CPU -/

omit [Arith F] in
private theorem block_eq (n : Blifat F) : Cuda.blockNeuron n = blifatTick (blifatRestore n) := by
  unfold Cuda.blockNeuron blifatTick blifatRestore
  by_cases h1 : n.blocking ≤ 0
  · rw [if_pos h1, if_pos h1]
    by_cases h2 : n.blocking < 0
    · simp only [h2, if_true, and_true]
      by_cases h3 : n.blocking + 1 = 0
      · simp [h3]
      · simp [h3]
    · have h3 : n.blocking = 0 := by omega
      simp [h3]
  · rw [if_neg h1, if_neg h1, if_neg (by omega), if_pos (by omega)]

private theorem pre_eq (n : Blifat F) (h : n.burstingPhase ≤ 1) : Cuda.preNeuron n = blifatPre n := by
  unfold Cuda.preNeuron blifatPre
  congr 1
  unfold Cuda.burst blifatBurst
  have hb : (blifatDecay n).burstingPhase = n.burstingPhase := rfl
  rw [hb]
  by_cases h0 : n.burstingPhase = 0
  · rw [if_pos h0, if_neg (by omega)]
  · have h1 : n.burstingPhase = 1 := by omega
    rw [if_neg h0, if_pos h1]
    simp [h1]

private theorem impact_eq (n : Blifat F) (i : SynapticImpact F) (f : Bool)
    (h : i.synapseType = .blocking → ∀ v, Arith.toI64 i.impactValue = some v → 0 ≤ v ∧ v < 2 ^ 32) :
    Cuda.impactNeuron n i = blifatImpact n i f := by
  unfold Cuda.impactNeuron blifatImpact
  cases ht : i.synapseType with
  | blocking =>
    simp only
    cases hv : Arith.toI64 i.impactValue with
    | none => rfl
    | some v =>
      simp only
      rw [if_pos (show 0 ≤ v ∧ v < Cuda.two32 from h ht v hv)]
  | _ => rfl

private theorem fire_eq (n : Blifat F) (hadd : ∀ x : F, x + n.additional = x) :
    (if Cuda.fires n then (Cuda.fired n, true) else (n, false)) = blifatFire n := by
  have h1 : Cuda.fires n = blifatSpikes n := by
    unfold Cuda.fires blifatSpikes
    rw [hadd]
  unfold blifatFire
  rw [h1]
  rfl

/-- What the rest of the neuron's parameters are after the impact. -/
private theorem impact_additional {n n' : Blifat F} {i : SynapticImpact F} {f : Bool} (h : blifatImpact n i f = .ok n') :
    n'.additional = n.additional := by
  unfold blifatImpact at h
  cases ht : i.synapseType with
  | blocking =>
    simp only [ht] at h
    cases hv : Arith.toI64 i.impactValue with
    | none => simp only [hv] at h; cases h
    | some v => simp only [hv, Outcome.ok.injEq] at h; rw [← h]
  | _ => simp only [ht, Outcome.ok.injEq] at h; rw [← h]

private theorem post_additional (n : Blifat F) : (blifatInhibit (blifatTick (blifatRestore n))).additional = n.additional := by
  have h1 : ∀ m : Blifat F, (blifatInhibit m).additional = m.additional := by
    intro m; unfold blifatInhibit; split <;> rfl
  have h2 : ∀ m : Blifat F, (blifatTick m).additional = m.additional := by
    intro m; unfold blifatTick; split
    · rfl
    · split <;> rfl
  have h3 : (blifatRestore n).additional = n.additional := by unfold blifatRestore; split <;> rfl
  rw [h1, h2, h3]

/-- C134. A population of one neuron that is given one message with one impact makes the same step on the device as on the CPU, if its
bursting period is at most 1, no additional threshold is set and a blocking impact has a value of 32 bits that is not negative. -/
theorem C134_single_partial (uid : UID) (t : Nat) (n : Blifat F) (m : SynapticImpactMessage F) (i : SynapticImpact F)
    (hm : m.impacts = [i]) (hb : n.burstingPhase ≤ 1) (hadd : ∀ x : F, x + n.additional = x)
    (hbl : i.synapseType = .blocking → ∀ v, Arith.toI64 i.impactValue = some v → 0 ≤ v ∧ v < 2 ^ 32) :
    Cuda.calcPop t ⟨uid, [n]⟩ [m] = match stepPopulation blifat uid t [n] [m] with
      | .ok r => .ok (⟨uid, r.1⟩, r.2)
      | .throw w => .throw w
      | .ub => .ub := by
  have h1 : preImpact (blifat (F := F)) [n] 0 [n].length = .ok [blifatPre n] := rfl
  have hcpu : ∀ p : List (Blifat F), impactPopulation blifat p [m] = impactAt blifat p i m.isForcing := by
    intro p
    unfold impactPopulation
    simp only [hm, List.foldlM_cons, List.foldlM_nil]
    cases impactAt blifat p i m.isForcing <;> rfl
  have hdev : ∀ p : List (Blifat F), Cuda.impactAll [m] p = Cuda.impactAt p i := by
    intro p
    unfold Cuda.impactAll
    rw [hm]
    unfold Cuda.impactMessage
    cases Cuda.impactAt p i <;> rfl
  have hat : Cuda.impactAt [blifatPre n] i = impactAt blifat [blifatPre n] i m.isForcing := by
    unfold Cuda.impactAt impactAt
    cases hk : [blifatPre n][i.postsynapticNeuronIndex]? with
    | none => rfl
    | some x =>
      simp only
      rw [impact_eq x i m.isForcing hbl]
      show _ = Outcome.bind (blifatImpact x i m.isForcing) _
      cases blifatImpact x i m.isForcing <;> rfl
  have hstep : stepPopulation blifat uid t [n] [m] = (impactPopulation blifat [blifatPre n] [m]).bind (fun ns =>
      (postImpact blifat ns [] 0 ns.length).bind (fun r =>
        .ok (r.1, if r.2.isEmpty then none else some ⟨⟨uid, t⟩, r.2⟩))) := rfl
  rw [hstep, hcpu]
  unfold Cuda.calcPop
  rw [List.map_cons, List.map_nil, pre_eq n hb, hdev, hat]
  cases hi : impactAt blifat [blifatPre n] i m.isForcing with
  | throw w => rfl
  | ub => rfl
  | ok ns =>
    have hns : ∃ n', ns = [n'] ∧ ∀ x : F, x + n'.additional = x := by
      unfold impactAt at hi
      cases hk : [blifatPre n][i.postsynapticNeuronIndex]? with
      | none => rw [hk] at hi; cases hi
      | some x =>
        rw [hk] at hi
        simp only at hi
        have h0 : i.postsynapticNeuronIndex = 0 := by
          have := (List.getElem?_eq_some_iff.1 hk).1
          simpa using this
        rw [h0, List.getElem?_cons_zero, Option.some.injEq] at hk
        subst hk
        have hi' : Outcome.bind (blifatImpact (blifatPre n) i m.isForcing)
            (fun n' => pure ([blifatPre n].set i.postsynapticNeuronIndex n')) = .ok ns := hi
        cases hx : blifatImpact (blifatPre n) i m.isForcing with
        | throw w => rw [hx] at hi'; cases hi'
        | ub => rw [hx] at hi'; cases hi'
        | ok n' =>
          rw [hx] at hi'
          have e : ns = [blifatPre n].set i.postsynapticNeuronIndex n' := (Outcome.ok.inj hi').symm
          refine ⟨n', by rw [e, h0]; rfl, ?_⟩
          have hp : (blifatPre n).additional = n.additional := by
            unfold blifatPre blifatSave blifatBurst
            split <;> rfl
          rw [impact_additional hx, hp]
          exact hadd
    obtain ⟨n', rfl, hn'⟩ := hns
    have hpost : postImpact blifat [n'] [] 0 [n'].length = .ok ([(blifatPost n').1], if (blifatPost n').2 then [0] else []) := by
      have : postImpact blifat [n'] [] 0 [n'].length = postAt blifat ([n'], []) 0 := by
        unfold postImpact
        show List.foldlM (postAt blifat) ([n'], []) [0] = _
        simp only [List.foldlM_cons, List.foldlM_nil]
        cases postAt blifat ([n'], []) 0 <;> rfl
      rw [this]
      rfl
    have hper : Cuda.perImpact 0 (Cuda.blockNeuron n', false, []) =
        ((blifatPost n').1, (blifatPost n').2, if (blifatPost n').2 then [0] else []) := by
      unfold Cuda.perImpact
      simp only
      rw [block_eq, fire_eq _ (by rw [post_additional]; exact hn')]
      rfl
    simp only [Outcome.bind]
    rw [hpost]
    simp only
    unfold Cuda.postLoop
    simp only [hm, List.foldl_cons, List.foldl_nil, hper, List.isEmpty_cons]
    rfl

private theorem per_zero (s : Blifat F × Bool × List Nat) (hs : ∀ i ∈ s.2.2, i = 0) : ∀ i ∈ (Cuda.perImpact 0 s).2.2, i = 0 := by
  unfold Cuda.perImpact
  simp only
  generalize (if Cuda.fires (blifatInhibit s.1) = true then (Cuda.fired (blifatInhibit s.1), true) else (blifatInhibit s.1, s.2.1)) = r
  cases r.2 with
  | false => exact hs
  | true =>
    intro k hk
    rcases List.mem_append.1 hk with hk | hk
    · exact hs k hk
    · simpa using hk

/-- What an impact leaves alone, the impacts of messages leave alone in every neuron. -/
private theorem impacts_keep {α : Type} (g : Blifat F → α) (hg : ∀ (n n' : Blifat F) (i : SynapticImpact F), Cuda.impactNeuron n i = .ok n' →
    g n' = g n) : ∀ (ms : List (SynapticImpactMessage F)) (ns ns' : List (Blifat F)), Cuda.impactAll ms ns = .ok ns' → ns'.map g = ns.map g := by
  have hat : ∀ (i : SynapticImpact F) (ns ns' : List (Blifat F)), Cuda.impactAt ns i = .ok ns' → ns'.map g = ns.map g := by
    intro i ns ns' h
    unfold Cuda.impactAt at h
    cases hk : ns[i.postsynapticNeuronIndex]? with
    | none => simp only [hk] at h; cases h
    | some n =>
      simp only [hk] at h
      cases hx : Cuda.impactNeuron n i with
      | throw w => simp only [hx] at h; cases h
      | ub => simp only [hx] at h; cases h
      | ok n' =>
        simp only [hx, Outcome.ok.injEq] at h
        rw [← h, List.map_set, hg _ _ _ hx]
        refine List.ext_getElem? (fun j => ?_)
        rw [List.getElem?_set]
        split
        · rename_i he
          subst he
          rw [List.getElem?_map, hk]
          simp [(List.getElem?_eq_some_iff.1 hk).1]
        · rfl
  have hmsg : ∀ (is : List (SynapticImpact F)) (ns ns' : List (Blifat F)), Cuda.impactMessage is ns = .ok ns' → ns'.map g = ns.map g := by
    intro is
    induction is with
    | nil => intro ns ns' h; simp only [Cuda.impactMessage, Outcome.ok.injEq] at h; rw [h]
    | cons i is ih =>
      intro ns ns' h
      unfold Cuda.impactMessage at h
      cases hx : Cuda.impactAt ns i with
      | throw w => simp only [hx] at h; cases h
      | ub => simp only [hx] at h; cases h
      | ok n1 => simp only [hx] at h; rw [ih _ _ h, hat _ _ _ hx]
  intro ms
  induction ms with
  | nil => intro ns ns' h; simp only [Cuda.impactAll, Outcome.ok.injEq] at h; rw [h]
  | cons m ms ih =>
    intro ns ns' h
    unfold Cuda.impactAll at h
    cases hx : Cuda.impactMessage m.impacts ns with
    | throw w => simp only [hx] at h; cases h
    | ub => simp only [hx] at h; cases h
    | ok n1 => simp only [hx] at h; rw [ih _ _ h, hmsg _ _ _ hx]

/-- The values of blocking impacts have 32 bits and are not negative. -/
def ShortBlocks (ms : List (SynapticImpactMessage F)) : Prop :=
  ∀ m ∈ ms, ∀ i ∈ m.impacts, i.synapseType = .blocking → ∀ v, Arith.toI64 i.impactValue = some v → 0 ≤ v ∧ v < 2 ^ 32

private theorem impacts_eq : ∀ (ms : List (SynapticImpactMessage F)) (ns : List (Blifat F)), ShortBlocks ms →
    Cuda.impactAll ms ns = impactPopulation blifat ns ms := by
  have hat : ∀ (i : SynapticImpact F) (f : Bool) (ns : List (Blifat F)),
      (i.synapseType = .blocking → ∀ v, Arith.toI64 i.impactValue = some v → 0 ≤ v ∧ v < 2 ^ 32) →
      Cuda.impactAt ns i = impactAt blifat ns i f := by
    intro i f ns hbl
    unfold Cuda.impactAt impactAt
    cases hk : ns[i.postsynapticNeuronIndex]? with
    | none => rfl
    | some x =>
      simp only
      rw [impact_eq x i f hbl]
      show _ = Outcome.bind (blifatImpact x i f) _
      cases blifatImpact x i f <;> rfl
  have hmsg : ∀ (f : Bool) (is : List (SynapticImpact F)) (ns : List (Blifat F)),
      (∀ i ∈ is, i.synapseType = .blocking → ∀ v, Arith.toI64 i.impactValue = some v → 0 ≤ v ∧ v < 2 ^ 32) →
      Cuda.impactMessage is ns = is.foldlM (fun q i => impactAt blifat q i f) ns := by
    intro f is
    induction is with
    | nil => intro ns _; rfl
    | cons i is ih =>
      intro ns h
      unfold Cuda.impactMessage
      rw [hat i f ns (h i (List.mem_cons_self ..)), List.foldlM_cons]
      cases hx : impactAt blifat ns i f with
      | throw w => rfl
      | ub => rfl
      | ok n1 => exact ih n1 (fun j hj => h j (List.mem_cons_of_mem _ hj))
  intro ms
  induction ms with
  | nil => intro ns _; rfl
  | cons m ms ih =>
    intro ns h
    unfold Cuda.impactAll impactPopulation
    rw [hmsg m.isForcing m.impacts ns (h m (List.mem_cons_self ..)), List.foldlM_cons]
    cases hx : m.impacts.foldlM (fun q i => impactAt blifat q i m.isForcing) ns with
    | throw w => rfl
    | ub => rfl
    | ok n1 => exact ih n1 (fun j hj => h j (List.mem_cons_of_mem _ hj))

/-- The rest of the step of the CPU after the blocking counter, `k` times: the neuron, and in how many of them it had spiked. -/
def rounds : Nat → Blifat F → Bool → Blifat F × Nat
  | 0, n, _ => (n, 0)
  | k + 1, n, b =>
    let r := blifatFire (blifatInhibit n)
    let q := rounds k (blifatClamp r.1) (b || r.2)
    (q.1, (if b || r.2 then 1 else 0) + q.2)

/-- What the device does after the impacts: the first neuron makes the rest of its step as often as the first message has impacts, the
other neurons do not. -/
def firstOnly (ms : List (SynapticImpactMessage F)) (ns : List (Blifat F)) : List (Blifat F) × List Nat :=
  match ms, ns with
  | [], _ => (ns, [])
  | _, [] => ([], [])
  | m :: _, n :: rest =>
    if m.impacts = [] then (n :: rest, [])
    else
      let r := rounds m.impacts.length (blifatTick (blifatRestore n)) false
      (r.1 :: rest, List.replicate r.2 0)

private theorem rounds_eq : ∀ (is : List (SynapticImpact F)) (n : Blifat F) (b : Bool) (l : List Nat), (∀ x : F, x + n.additional = x) →
    is.foldl (fun s _ => Cuda.perImpact 0 s) (n, b, l) =
      ((rounds is.length n b).1, (is.foldl (fun s _ => Cuda.perImpact 0 s) (n, b, l)).2.1, l ++ List.replicate (rounds is.length n b).2 0) := by
  intro is
  induction is with
  | nil => intro n b l _; simp [rounds]
  | cons i is ih =>
    intro n b l hn
    have hi : (blifatInhibit n).additional = n.additional := by unfold blifatInhibit; split <;> rfl
    have h1 : Cuda.perImpact 0 (n, b, l) = (blifatClamp (blifatFire (blifatInhibit n)).1, b || (blifatFire (blifatInhibit n)).2,
        if b || (blifatFire (blifatInhibit n)).2 then l ++ [0] else l) := by
      unfold Cuda.perImpact
      simp only
      rw [← fire_eq (blifatInhibit n) (by rw [hi]; exact hn)]
      cases Cuda.fires (blifatInhibit n) <;> cases b <;> rfl
    have hc : ∀ m : Blifat F, (blifatClamp m).additional = m.additional := by intro m; unfold blifatClamp; split <;> rfl
    have hf : ∀ m : Blifat F, (blifatFire m).1.additional = m.additional := by intro m; unfold blifatFire; split <;> rfl
    rw [List.foldl_cons, h1, List.length_cons]
    have h2 := ih (blifatClamp (blifatFire (blifatInhibit n)).1) (b || (blifatFire (blifatInhibit n)).2)
      (if b || (blifatFire (blifatInhibit n)).2 then l ++ [0] else l) (by rw [hc, hf, hi]; exact hn)
    rw [h2]
    simp only [rounds]
    refine Prod.ext rfl (Prod.ext rfl ?_)
    simp only
    cases b || (blifatFire (blifatInhibit n)).2
    · simp
    · simp only [if_true]
      rw [List.append_assoc, Nat.add_comm 1, List.replicate_succ]
      rfl

/-- C134. What the device does with any population and any messages, for bursting periods of at most 1, without additional thresholds, and with
blocking impacts of 32 bits that are not negative: every neuron decays and takes its impacts as on the CPU; then only the first neuron makes the rest of
its step, as often as the first message has impacts. -/
theorem C134_general_partial (uid : UID) (t : Nat) (ns : List (Blifat F)) (ms : List (SynapticImpactMessage F))
    (hb : ∀ n ∈ ns, n.burstingPhase ≤ 1) (hadd : ∀ n ∈ ns, ∀ x : F, x + n.additional = x) (hbl : ShortBlocks ms) :
    Cuda.calcPop t ⟨uid, ns⟩ ms = (impactPopulation blifat (ns.map blifatPre) ms).bind (fun ns2 =>
      .ok (⟨uid, (firstOnly ms ns2).1⟩, if (firstOnly ms ns2).2 = [] then none else some ⟨⟨uid, t⟩, (firstOnly ms ns2).2⟩)) := by
  have h1 : ns.map Cuda.preNeuron = ns.map blifatPre := List.map_congr_left (fun n hn => pre_eq n (hb n hn))
  unfold Cuda.calcPop
  simp only
  rw [h1, ← impacts_eq ms (ns.map blifatPre) hbl]
  cases hx : Cuda.impactAll ms (ns.map blifatPre) with
  | throw w => rfl
  | ub => rfl
  | ok ns2 =>
    have hkeep := impacts_keep (fun n => n.additional) (by
      intro n n' i h
      unfold Cuda.impactNeuron at h
      cases ht : i.synapseType with
      | blocking =>
        simp only [ht] at h
        cases hv : Arith.toI64 i.impactValue with
        | none => simp only [hv] at h; cases h
        | some v =>
          simp only [hv] at h
          by_cases hc : 0 ≤ v ∧ v < Cuda.two32
          · rw [if_pos hc, Outcome.ok.injEq] at h; rw [← h]
          · rw [if_neg hc] at h; cases h
      | _ => simp only [ht, Outcome.ok.injEq] at h; rw [← h]) _ _ _ hx
    have hpre : ∀ n : Blifat F, (blifatPre n).additional = n.additional := by
      intro n
      unfold blifatPre blifatSave blifatBurst
      split <;> rfl
    have hns2 : ∀ n ∈ ns2, ∀ x : F, x + n.additional = x := by
      intro n hn
      have : n.additional ∈ ns2.map (fun n => n.additional) := List.mem_map.2 ⟨n, hn, rfl⟩
      rw [hkeep, List.map_map] at this
      obtain ⟨n0, h0, h2⟩ := List.mem_map.1 this
      simp only [Function.comp_apply, hpre] at h2
      rw [← h2]
      exact hadd n0 h0
    have quiet : ∀ (ns : List (Blifat F)) (k : Nat), Cuda.postLoop uid t [] k ns = (ns, none) := by
      intro ns
      induction ns with
      | nil => intro k; rfl
      | cons n ns ih => intro k; unfold Cuda.postLoop; simp only [ih (k + 1)]
    simp only [Outcome.bind, Outcome.ok.injEq, Prod.mk.injEq, Cuda.Pop.mk.injEq, true_and]
    cases ms with
    | nil => rw [quiet]; simp [firstOnly]
    | cons m ms =>
      cases ns2 with
      | nil => simp [firstOnly, Cuda.postLoop]
      | cons n rest =>
        have hn := hns2 n (List.mem_cons_self ..)
        unfold Cuda.postLoop firstOnly
        simp only
        by_cases he : m.impacts = []
        · simp [he]
        · have he' : m.impacts.isEmpty = false := by simpa using he
          rw [if_neg he, he', block_eq, rounds_eq _ _ _ _ (by
            have := post_additional n
            have h2 : ∀ m : Blifat F, (blifatInhibit m).additional = m.additional := by intro m; unfold blifatInhibit; split <;> rfl
            rw [h2] at this
            rw [this]
            exact hn)]
          simp only [Bool.false_eq_true, if_false, List.nil_append, true_and]
          simp only [List.isEmpty_iff]

/-- C134. Bursts are counted on the device: with a phase of `k` the reflexive weight is added in the `k`-th step from now (if it does not spike
before).  On the CPU it is added only if the phase is 1, and phases greater than 1 stay (`C134_burst_refuted`). -/
theorem C134_burst (n : Blifat F) : (Cuda.preNeuron n).burstingPhase = n.burstingPhase - 1 ∧
    (Cuda.preNeuron n).potential = (if n.burstingPhase = 1 then n.potential * n.potentialDecay + n.reflexive else n.potential * n.potentialDecay) ∧
    (Cuda.preNeuron n).preImpact = (Cuda.preNeuron n).potential := by
  have h1 : (blifatDecay n).burstingPhase = n.burstingPhase := rfl
  unfold Cuda.preNeuron Cuda.burst
  rw [h1]
  by_cases h0 : n.burstingPhase = 0
  · rw [if_pos h0, if_neg (by omega)]
    exact ⟨by show n.burstingPhase = _; omega, rfl, rfl⟩
  · rw [if_neg h0]
    by_cases h2 : n.burstingPhase = 1
    · rw [if_pos (by omega), if_pos h2]
      exact ⟨rfl, rfl, rfl⟩
    · rw [if_neg (by omega), if_neg h2]
      exact ⟨rfl, rfl, rfl⟩

/-- C134. Only the first neuron of a population can spike. -/
theorem C134_only_first {t : Nat} {p p' : Cuda.Pop F} {ms : List (SynapticImpactMessage F)} {m : SpikeMessage}
    (h : Cuda.calcPop t p ms = .ok (p', some m)) : ∀ i ∈ m.neuronIndexes, i = 0 := by
  unfold Cuda.calcPop at h
  cases hx : Cuda.impactAll ms (p.neurons.map Cuda.preNeuron) with
  | throw a => rw [hx] at h; cases h
  | ub => rw [hx] at h; cases h
  | ok ns =>
    rw [hx] at h
    simp only [Outcome.ok.injEq, Prod.mk.injEq] at h
    have h2 := h.2
    have quiet : ∀ (ns : List (Blifat F)) (k : Nat), (Cuda.postLoop p.uid t [] k ns).2 = none := by
      intro ns
      induction ns with
      | nil => intro k; rfl
      | cons n ns ih => intro k; unfold Cuda.postLoop; exact ih (k + 1)
    cases ms with
    | nil => rw [quiet] at h2; cases h2
    | cons m0 ms =>
      cases ns with
      | nil => cases h2
      | cons n ns =>
        unfold Cuda.postLoop at h2
        simp only at h2
        split at h2
        · cases h2
        · simp only [Option.some.injEq] at h2
          rw [← h2]
          simp only
          refine Cuda.foldl_inv (fun s : Blifat F × Bool × List Nat => ∀ i ∈ s.2.2, i = 0) _ _ _ (by simp) ?_
          intro s i _ hs
          exact per_zero s hs

/-- C134. A population that is given no message does not spike, whatever its potentials are. -/
theorem C134_needs_input {t : Nat} {p p' : Cuda.Pop F} {s : Option SpikeMessage} (h : Cuda.calcPop t p [] = .ok (p', s)) :
    s = none ∧ p'.neurons = p.neurons.map Cuda.preNeuron := by
  unfold Cuda.calcPop Cuda.impactAll at h
  simp only [Outcome.ok.injEq, Prod.mk.injEq] at h
  have quiet : ∀ (ns : List (Blifat F)) (k : Nat), Cuda.postLoop p.uid t [] k ns = (ns, none) := by
    intro ns
    induction ns with
    | nil => intro k; rfl
    | cons n ns ih => intro k; unfold Cuda.postLoop; simp only [ih (k + 1)]
  rw [quiet] at h
  exact ⟨h.2.symm, by rw [← h.1]⟩

namespace CudaNeuronEx

/-- A neuron with threshold 5. -/
def neuron : Blifat Int := ⟨0, 5, 0, 0, 1, 0, 0, 0, 0, 0, 0, 0, 0, 1, 0, 0, 0, 0, 0, 0, -100, i64max, 0⟩

/-- A message with `k` impacts of weight 6 to neuron `target`. -/
def msg (target k : Nat) : SynapticImpactMessage Int :=
  ⟨⟨20, 0⟩, 0, 10, true, List.replicate k ⟨0, 6, .excitatory, 0, target⟩⟩

/-- What a population sends. -/
def spikes {α : Type} (r : Outcome (α × Option SpikeMessage)) : Option (Option SpikeMessage) :=
  match r with
  | .ok x => some x.2
  | _ => none

/-- The bursting phases after a step. -/
def phases (r : Outcome (List (Blifat Int) × Option SpikeMessage)) : List Nat :=
  match r with
  | .ok x => x.1.map (·.burstingPhase)
  | _ => []

end CudaNeuronEx

/-- The hypotheses of `C134_single_partial` are met by an ordinary neuron; it spikes. -/
example : CudaNeuronEx.spikes (Cuda.calcPop 3 ⟨10, [CudaNeuronEx.neuron]⟩ [CudaNeuronEx.msg 0 1]) = some (some ⟨⟨10, 3⟩, [0]⟩) ∧
    CudaNeuronEx.neuron.burstingPhase ≤ 1 ∧ ∀ x : Int, x + CudaNeuronEx.neuron.additional = x :=
  ⟨by decide +kernel, by decide, fun x => by simp [CudaNeuronEx.neuron]⟩

/-- The full property: a population makes the same step on the device as on the CPU. -/
def C134_statement : Prop :=
  ∀ (uid : UID) (t : Nat) (ns ns' : List (Blifat Int)) (ms : List (SynapticImpactMessage Int)) (s : Option SpikeMessage),
    stepPopulation blifat uid t ns ms = .ok (ns', s) → Cuda.calcPop t ⟨uid, ns⟩ ms = .ok (⟨uid, ns'⟩, s)

private theorem differs {uid : UID} {t : Nat} {ns : List (Blifat Int)} {ms : List (SynapticImpactMessage Int)} {a b : Option SpikeMessage}
    (h1 : CudaNeuronEx.spikes (stepPopulation blifat uid t ns ms) = some a)
    (h2 : CudaNeuronEx.spikes (Cuda.calcPop t ⟨uid, ns⟩ ms) = some b) (hab : a ≠ b) : ¬ C134_statement := by
  intro h
  cases hc : stepPopulation blifat uid t ns ms with
  | throw w => rw [hc] at h1; cases h1
  | ub => rw [hc] at h1; cases h1
  | ok r =>
    rw [h uid t ns r.1 ms r.2 hc] at h2
    rw [hc] at h1
    exact hab (Option.some.inj (h1.symm.trans h2))

/-- C134 does not hold: a second neuron above its threshold does not spike. -/
theorem C134_refuted : ¬ C134_statement :=
  differs (uid := 10) (t := 3) (ns := [CudaNeuronEx.neuron, CudaNeuronEx.neuron]) (ms := [CudaNeuronEx.msg 1 1])
    (a := some ⟨⟨10, 3⟩, [1]⟩) (b := none) (by decide +kernel) (by decide +kernel) (by decide)

/-- C134 does not hold: with two impacts in the message the neuron is in the spike message twice. -/
theorem C134_repeated_refuted : ¬ C134_statement :=
  differs (uid := 10) (t := 3) (ns := [CudaNeuronEx.neuron]) (ms := [CudaNeuronEx.msg 0 2])
    (a := some ⟨⟨10, 3⟩, [0]⟩) (b := some ⟨⟨10, 3⟩, [0, 0]⟩) (by decide +kernel) (by decide +kernel) (by decide)

/-- C134 does not hold: without a message a neuron above its threshold does not spike. -/
theorem C134_no_input_refuted : ¬ C134_statement :=
  differs (uid := 10) (t := 3) (ns := [{ CudaNeuronEx.neuron with potential := 9 }]) (ms := [])
    (a := some ⟨⟨10, 3⟩, [0]⟩) (b := none) (by decide +kernel) (by decide +kernel) (by decide)

/-- C134 does not hold: the additional threshold is ignored. -/
theorem C134_threshold_refuted : ¬ C134_statement :=
  differs (uid := 10) (t := 3) (ns := [{ CudaNeuronEx.neuron with additional := 4 }]) (ms := [CudaNeuronEx.msg 0 1])
    (a := none) (b := some ⟨⟨10, 3⟩, [0]⟩) (by decide +kernel) (by decide +kernel) (by decide)

/-- C134 does not hold: a burst of period 2 begins on the device two steps after the spike, on the CPU never. -/
theorem C134_burst_refuted : ¬ C134_statement := by
  intro h
  have h0 : CudaNeuronEx.phases (stepPopulation blifat 10 3 [{ CudaNeuronEx.neuron with burstingPhase := 2 }] []) = [2] := by decide +kernel
  cases hc : stepPopulation blifat 10 3 [{ CudaNeuronEx.neuron with burstingPhase := 2 }] [] with
  | throw w => rw [hc] at h0; cases h0
  | ub => rw [hc] at h0; cases h0
  | ok r =>
    have h1 := h 10 3 _ r.1 [] r.2 hc
    have h2 : r.1.map (·.burstingPhase) = [2] := by
      rw [hc] at h0
      exact h0
    have h3 : CudaNeuronEx.phases ((Cuda.calcPop 3 ⟨10, [{ CudaNeuronEx.neuron with burstingPhase := 2 }]⟩ []).bind
        (fun r => .ok (r.1.neurons, r.2))) = [1] := by decide +kernel
    rw [h1] at h3
    have h4 : r.1.map (·.burstingPhase) = [1] := h3
    rw [h2] at h4
    cases h4

/-- The hypotheses of `C134_general_partial` are met by two neurons and two messages; the first neuron spikes, though its impact is in the second
message, the second one does not. -/
example : CudaNeuronEx.spikes (Cuda.calcPop 3 ⟨10, [CudaNeuronEx.neuron, CudaNeuronEx.neuron]⟩ [CudaNeuronEx.msg 1 1, CudaNeuronEx.msg 0 1]) =
      some (some ⟨⟨10, 3⟩, [0]⟩) ∧
    (∀ n ∈ [CudaNeuronEx.neuron, CudaNeuronEx.neuron], n.burstingPhase ≤ 1 ∧ ∀ x : Int, x + n.additional = x) ∧
    ShortBlocks [CudaNeuronEx.msg 1 1, CudaNeuronEx.msg 0 1] := by
  refine ⟨by decide +kernel, ?_, ?_⟩
  · intro n hn
    have : n = CudaNeuronEx.neuron := by simpa using hn
    subst this
    exact ⟨by decide, fun x => by simp [CudaNeuronEx.neuron]⟩
  · intro m hm i hi ht
    simp only [List.mem_cons, List.not_mem_nil, or_false] at hm
    rcases hm with rfl | rfl <;> simp only [CudaNeuronEx.msg, List.replicate, List.mem_singleton] at hi <;> (subst hi; cases ht)

/-! ## C143: the refractory period on the device -/

/-- Counter and refractory period. -/
private def clock (n : Blifat F) : Nat × Nat := (n.sinceFiring, n.refractory)

private theorem impact_clock {n n' : Blifat F} {i : SynapticImpact F} (h : Cuda.impactNeuron n i = .ok n') : clock n' = clock n := by
  unfold Cuda.impactNeuron at h
  cases ht : i.synapseType with
  | blocking =>
    simp only [ht] at h
    cases hv : Arith.toI64 i.impactValue with
    | none => simp only [hv] at h; cases h
    | some v =>
      simp only [hv] at h
      by_cases hc : 0 ≤ v ∧ v < Cuda.two32
      · rw [if_pos hc, Outcome.ok.injEq] at h; rw [← h]; rfl
      · rw [if_neg hc] at h; cases h
  | _ => simp only [ht, Outcome.ok.injEq] at h; rw [← h]; rfl

private theorem impactAll_clock (ms : List (SynapticImpactMessage F)) (ns ns' : List (Blifat F)) (h : Cuda.impactAll ms ns = .ok ns') :
    ns'.map clock = ns.map clock := impacts_keep clock (fun _ _ _ h => impact_clock h) ms ns ns' h

private theorem pre_clock (n : Blifat F) : clock (Cuda.preNeuron n) = (addU64 n.sinceFiring 1, n.refractory) := by
  have hs : ∀ m : Blifat F, clock (blifatSave m) = clock m := fun m => rfl
  have hb : ∀ m : Blifat F, clock (Cuda.burst m) = clock m := by
    intro m
    unfold Cuda.burst
    split
    · rfl
    · split <;> rfl
  unfold Cuda.preNeuron
  rw [hs, hb]
  rfl

private theorem inhibit_clock (n : Blifat F) : clock (blifatInhibit n) = clock n := by unfold blifatInhibit; split <;> rfl

private theorem clamp_clock (n : Blifat F) : clock (blifatClamp n) = clock n := by unfold blifatClamp; split <;> rfl

omit [Arith F] in
private theorem block_clock (n : Blifat F) : clock (Cuda.blockNeuron n) = clock n := by unfold Cuda.blockNeuron; split <;> rfl

/-- The clock in the loop over the impacts: either it did not fire, or it could and did. -/
private theorem per_clock (c r : Nat) (s : Blifat F × Bool × List Nat)
    (h : (s.2.1 = false ∧ s.2.2 = [] ∧ clock s.1 = (c, r)) ∨ (s.2.1 = true ∧ c > r ∧ clock s.1 = (0, r))) :
    ((Cuda.perImpact 0 s).2.1 = false ∧ (Cuda.perImpact 0 s).2.2 = [] ∧ clock (Cuda.perImpact 0 s).1 = (c, r)) ∨
    ((Cuda.perImpact 0 s).2.1 = true ∧ c > r ∧ clock (Cuda.perImpact 0 s).1 = (0, r)) := by
  have hi := inhibit_clock s.1
  unfold Cuda.perImpact
  simp only
  generalize blifatInhibit s.1 = n at hi
  rw [clamp_clock]
  have hf : Cuda.fires n = true → n.sinceFiring > n.refractory := by
    intro hx
    unfold Cuda.fires at hx
    rw [Bool.and_eq_true] at hx
    simpa using hx.1
  have hc : (n.sinceFiring, n.refractory) = clock s.1 := hi
  by_cases hx : Cuda.fires n = true
  · have hlt := hf hx
    rw [if_pos hx]
    simp only
    refine .inr ⟨trivial, ?_⟩
    rcases h with ⟨h1, h2, h3⟩ | ⟨h1, h2, h3⟩
    · rw [h3, Prod.mk.injEq] at hc
      rw [hc.1, hc.2] at hlt
      exact ⟨hlt, by unfold clock Cuda.fired; rw [← hc.2]⟩
    · exact ⟨h2, by unfold clock Cuda.fired; rw [h3, Prod.mk.injEq] at hc; rw [← hc.2]⟩
  · rw [if_neg hx]
    simp only
    rcases h with ⟨h1, h2, h3⟩ | ⟨h1, h2, h3⟩
    · left
      rw [h1]
      exact ⟨rfl, by simpa using h2, by rw [hi, h3]⟩
    · right
      exact ⟨h1, h2, by rw [hi, h3]⟩

/-- C143. A neuron on the device spikes only if more steps than its refractory period have passed since it last spiked (the counter of a
neuron is the number of steps since then), and then its counter starts anew; a neuron that does not spike counts on.  So two spikes of a neuron are
more than its refractory period apart. -/
theorem C143_refractory {t : Nat} {p p' : Cuda.Pop F} {ms : List (SynapticImpactMessage F)} {s : Option SpikeMessage}
    (h : Cuda.calcPop t p ms = .ok (p', s)) (k : Nat) (n : Blifat F) (hn : p.neurons[k]? = some n) :
    ∃ n', p'.neurons[k]? = some n' ∧ n'.refractory = n.refractory ∧
      ((∃ m, s = some m ∧ k ∈ m.neuronIndexes ∧ addU64 n.sinceFiring 1 > n.refractory ∧ n'.sinceFiring = 0) ∨
        ((∀ m, s = some m → k ∉ m.neuronIndexes) ∧ n'.sinceFiring = addU64 n.sinceFiring 1)) := by
  unfold Cuda.calcPop at h
  cases hx : Cuda.impactAll ms (p.neurons.map Cuda.preNeuron) with
  | throw a => rw [hx] at h; cases h
  | ub => rw [hx] at h; cases h
  | ok ns =>
    rw [hx] at h
    simp only [Outcome.ok.injEq, Prod.mk.injEq] at h
    obtain ⟨h1, h2⟩ := h
    rw [← h1, ← h2]
    clear h1 h2
    simp only
    have hcl := impactAll_clock _ _ _ hx
    have hk : (ns.map clock)[k]? = some (addU64 n.sinceFiring 1, n.refractory) := by
      rw [hcl, List.getElem?_map, List.getElem?_map, hn]
      simp only [Option.map_some]
      rw [pre_clock]
    rw [List.getElem?_map] at hk
    cases hnk : ns[k]? with
    | none => rw [hnk] at hk; cases hk
    | some x =>
      rw [hnk, Option.map_some, Option.some.injEq] at hk
      have hk' : x.sinceFiring = addU64 n.sinceFiring 1 ∧ x.refractory = n.refractory := by
        unfold clock at hk
        rw [Prod.mk.injEq] at hk
        exact hk
      have quiet : ∀ (ns : List (Blifat F)) (k : Nat), Cuda.postLoop p.uid t [] k ns = (ns, none) := by
        intro ns
        induction ns with
        | nil => intro k; rfl
        | cons n ns ih => intro k; unfold Cuda.postLoop; simp only [ih (k + 1)]
      cases ms with
      | nil =>
        rw [quiet]
        exact ⟨x, hnk, hk'.2, .inr ⟨(fun m hm => by cases hm), hk'.1⟩⟩
      | cons m0 ms =>
        cases ns with
        | nil => cases hnk
        | cons y ns =>
          unfold Cuda.postLoop
          simp only
          have inv := Cuda.foldl_inv (fun s : Blifat F × Bool × List Nat =>
            (s.2.1 = false ∧ s.2.2 = [] ∧ clock s.1 = clock y) ∨ (s.2.1 = true ∧ y.sinceFiring > y.refractory ∧ clock s.1 = (0, y.refractory)))
            (fun s _ => Cuda.perImpact 0 s) m0.impacts (Cuda.blockNeuron y, false, []) (.inl ⟨rfl, rfl, block_clock y⟩)
            (fun s i _ hs => per_clock _ _ s hs)
          have hne : m0.impacts ≠ [] → ∀ s0 : Blifat F × Bool × List Nat,
              (m0.impacts.foldl (fun s _ => Cuda.perImpact 0 s) s0).2.1 = true →
              0 ∈ (m0.impacts.foldl (fun s _ => Cuda.perImpact 0 s) s0).2.2 := by
            intro hne s0
            rw [← List.dropLast_append_getLast hne, List.foldl_append, List.foldl_cons, List.foldl_nil]
            generalize List.foldl _ s0 _ = s1
            unfold Cuda.perImpact
            simp only
            intro hh
            rw [if_pos hh]
            simp
          have honly : ∀ i ∈ (m0.impacts.foldl (fun s _ => Cuda.perImpact 0 s) (Cuda.blockNeuron y, false, [])).2.2, i = 0 := by
            refine Cuda.foldl_inv (fun s : Blifat F × Bool × List Nat => ∀ i ∈ s.2.2, i = 0) _ _ _ (by simp) ?_
            intro s i _ hs
            exact per_zero s hs
          have hne := fun e => hne e (Cuda.blockNeuron y, false, [])
          cases k with
          | succ k =>
            rw [List.getElem?_cons_succ] at hnk ⊢
            refine ⟨x, hnk, hk'.2, .inr ⟨?_, hk'.1⟩⟩
            intro m hm
            split at hm
            · cases hm
            · rw [← Option.some.inj hm]
              intro hc
              have := honly _ hc
              omega
          | zero =>
            rw [List.getElem?_cons_zero, Option.some.injEq] at hnk
            subst hnk
            rw [List.getElem?_cons_zero]
            by_cases he : m0.impacts = []
            · simp only [he, List.isEmpty_nil, if_true, List.foldl_nil]
              exact ⟨y, rfl, hk'.2, .inr ⟨(fun m hm => by cases hm), hk'.1⟩⟩
            · have he' : m0.impacts.isEmpty = false := by simpa using he
              rw [he']
              simp only [Bool.false_eq_true, if_false]
              generalize m0.impacts.foldl (fun s _ => Cuda.perImpact 0 s) (Cuda.blockNeuron y, false, []) = r at inv hne honly ⊢
              rcases inv with ⟨i1, i2, i3⟩ | ⟨i1, i2, i3⟩
              · rw [i2]
                refine ⟨r.1, rfl, ?_, .inr ⟨(fun m hm => by cases hm), ?_⟩⟩
                · have := congrArg Prod.snd i3; exact this.trans hk'.2
                · have := congrArg Prod.fst i3; exact this.trans hk'.1
              · have h0 := hne he i1
                have hemp : r.2.2.isEmpty = false := by
                  cases hr : r.2.2 with
                  | nil => rw [hr] at h0; cases h0
                  | cons a l => rfl
                rw [hemp]
                refine ⟨r.1, rfl, ?_, .inl ⟨_, rfl, h0, ?_, ?_⟩⟩
                · have := congrArg Prod.snd i3; exact this.trans hk'.2
                · rw [← hk'.1, ← hk'.2]; exact i2
                · exact congrArg Prod.fst i3

example : CudaNeuronEx.spikes (Cuda.calcPop 3 ⟨10, [{ CudaNeuronEx.neuron with refractory := 2, sinceFiring := 1 }]⟩ [CudaNeuronEx.msg 0 1]) =
      some none ∧
    CudaNeuronEx.spikes (Cuda.calcPop 3 ⟨10, [{ CudaNeuronEx.neuron with refractory := 2, sinceFiring := 2 }]⟩ [CudaNeuronEx.msg 0 1]) =
      some (some ⟨⟨10, 3⟩, [0]⟩) := by
  constructor <;> decide +kernel

/-! ## C142: devices -/

omit [Arith F] in
/-- C142. No UID the program has can be used to select a GPU: every UID it got from an earlier call of `get_devices` (or from anywhere else) is
refused with an exception; with an empty set the behaviour is undefined. -/
theorem C142_never_selected_partial (count fresh : Nat) (uids : List UID) (hold : ∀ u ∈ uids, u < fresh) :
    Cuda.selectDevices count fresh [] uids = if uids = [] then .ub else .throw "Not all devices were selected." := by
  have hf : (Cuda.getDevices count fresh).find? (fun d => uids.contains d.uid) = none := by
    rw [List.find?_eq_none]
    intro d hd
    unfold Cuda.getDevices at hd
    obtain ⟨i, _, rfl⟩ := List.mem_map.1 hd
    simp only [List.contains_iff_mem]
    intro hc
    have := hold _ hc
    exact absurd (show fresh + i < fresh from this) (by omega)
  unfold Cuda.selectDevices
  rw [hf]
  cases uids with
  | nil => rfl
  | cons u l => rfl

/-- The full property: a device that `get_devices` returned can be selected by its UID. -/
def C142_statement : Prop :=
  ∀ (count fresh fresh' : Nat) (d : Cuda.Gpu), d ∈ Cuda.getDevices count fresh → fresh + count ≤ fresh' →
    Cuda.selectDevices count fresh' [] [d.uid] = .ok ([⟨d.uid, d.number⟩], d.number)

/-- C142 does not hold: the UID of the device is a new one in every call. -/
theorem C142_refuted : ¬ C142_statement := by
  intro h
  have := h 1 100 101 ⟨100, 0⟩ (by decide) (by decide)
  cases this

/-- The UIDs of two calls of `get_devices` are different. -/
example : (Cuda.getDevices 2 100).map (·.uid) = [100, 101] ∧ (Cuda.getDevices 2 102).map (·.uid) = [102, 103] := by decide

end Knp.Props
