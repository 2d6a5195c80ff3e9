import Verif.Props.Neurons
import Verif.Props.Delta

/-!
# Whole-population steps: C55, C47
-/

namespace Knp.Props
open Knp Knp.Neurons

variable {N F : Type}

/-! ## C55 -/

/-- The impacts addressed to neuron `i`, with the forcing flag of their message, in order of arrival. -/
def addressed (i : Nat) (msgs : List (SynapticImpactMessage F)) : List (SynapticImpact F × Bool) :=
  msgs.flatMap (fun m => (m.impacts.filter (fun x => x.postsynapticNeuronIndex == i)).map (fun x => (x, m.isForcing)))

/-- All impacts in order. -/
private def flat (msgs : List (SynapticImpactMessage F)) : List (SynapticImpact F × Bool) :=
  msgs.flatMap (fun m => m.impacts.map (fun x => (x, m.isForcing)))

private def mine (i : Nat) (x : SynapticImpact F × Bool) : Bool := x.1.postsynapticNeuronIndex == i

private theorem addressed_eq (i : Nat) (msgs : List (SynapticImpactMessage F)) :
    addressed i msgs = (flat msgs).filter (mine i) := by
  unfold addressed flat
  rw [List.filter_flatMap]
  congr 1
  funext m
  rw [List.filter_map]
  rfl

private theorem impact_flat (k : Kind N F) : ∀ (msgs : List (SynapticImpactMessage F)) (pop : List N),
    impactPopulation k pop msgs = (flat msgs).foldlM (fun p x => impactAt k p x.1 x.2) pop := by
  intro msgs
  induction msgs with
  | nil => intro pop; rfl
  | cons m rest ih =>
    intro pop
    unfold impactPopulation flat
    rw [List.foldlM_cons, List.flatMap_cons, List.foldlM_append]
    have e : (m.impacts.map (fun x => (x, m.isForcing))).foldlM (fun p x => impactAt k p x.1 x.2) pop =
        m.impacts.foldlM (fun q i => impactAt k q i m.isForcing) pop := by
      rw [List.foldlM_map]
    rw [e]
    cases m.impacts.foldlM (fun q i => impactAt k q i m.isForcing) pop with
    | ok p => exact ih p
    | throw w => rfl
    | ub => rfl

private theorem impacts_ok (k : Kind N F) : ∀ (l : List (SynapticImpact F × Bool)) (pop pop' : List N),
    l.foldlM (fun p x => impactAt k p x.1 x.2) pop = Outcome.ok pop' →
    pop'.length = pop.length ∧ (∀ x ∈ l, x.1.postsynapticNeuronIndex < pop.length) ∧
    ∀ i n, pop[i]? = some n → ∃ n', (l.filter (mine i)).foldlM (fun m x => k.impact m x.1 x.2) n = Outcome.ok n' ∧
      pop'[i]? = some n' := by
  intro l
  induction l with
  | nil =>
    intro pop pop' h
    simp at h
    subst h
    exact ⟨rfl, by simp, fun i n hn => ⟨n, rfl, hn⟩⟩
  | cons x rest ih =>
    intro pop pop' h
    rw [List.foldlM_cons] at h
    unfold impactAt at h
    cases hx : pop[x.1.postsynapticNeuronIndex]? with
    | none => rw [hx] at h; simp at h
    | some a =>
      rw [hx] at h
      simp only at h
      have hlt := (List.getElem?_eq_some_iff.1 hx).1
      cases hi : k.impact a x.1 x.2 with
      | throw w => rw [hi] at h; simp at h
      | ub => rw [hi] at h; simp at h
      | ok a' =>
        rw [hi] at h
        simp only [Outcome.bind_ok, Outcome.pure_eq] at h
        obtain ⟨h1, h2, h3⟩ := ih _ pop' h
        rw [List.length_set] at h1 h2
        refine ⟨h1, ?_, ?_⟩
        · intro y hy
          rcases List.mem_cons.1 hy with rfl | hy
          · exact hlt
          · exact h2 y hy
        · intro i n hn
          by_cases hii : x.1.postsynapticNeuronIndex = i
          · subst hii
            rw [hx] at hn
            cases hn
            obtain ⟨n', e1, e2⟩ := h3 x.1.postsynapticNeuronIndex a' (by rw [List.getElem?_set_self hlt])
            refine ⟨n', ?_, e2⟩
            rw [List.filter_cons_of_pos (by simp [mine]), List.foldlM_cons, hi, Outcome.bind_ok, e1]
          · obtain ⟨n', e1, e2⟩ := h3 i n (by rw [List.getElem?_set_ne hii]; exact hn)
            refine ⟨n', ?_, e2⟩
            rw [List.filter_cons_of_neg (by simp [mine, hii]), e1]

private theorem impacts_total (k : Kind N F) : ∀ (l : List (SynapticImpact F × Bool)) (pop : List N),
    (∀ x ∈ l, x.1.postsynapticNeuronIndex < pop.length) →
    (∀ i n, pop[i]? = some n →
      ∃ n', (l.filter (mine i)).foldlM (fun m x => k.impact m x.1 x.2) n = Outcome.ok n') →
    ∃ pop', l.foldlM (fun p x => impactAt k p x.1 x.2) pop = Outcome.ok pop' := by
  intro l
  induction l with
  | nil => intro pop _ _; exact ⟨pop, rfl⟩
  | cons x rest ih =>
    intro pop h1 h2
    have hlt := h1 x (by simp)
    obtain ⟨a, hx⟩ : ∃ a, pop[x.1.postsynapticNeuronIndex]? = some a :=
      ⟨pop[x.1.postsynapticNeuronIndex], List.getElem?_eq_getElem hlt⟩
    obtain ⟨n', hn'⟩ := h2 _ a hx
    rw [List.filter_cons_of_pos (by simp [mine]), List.foldlM_cons] at hn'
    cases hi : k.impact a x.1 x.2 with
    | throw w => rw [hi] at hn'; simp at hn'
    | ub => rw [hi] at hn'; simp at hn'
    | ok a' =>
      rw [hi, Outcome.bind_ok] at hn'
      have hstep : impactAt k pop x.1 x.2 = Outcome.ok (pop.set x.1.postsynapticNeuronIndex a') := by
        unfold impactAt
        rw [hx]
        simp only
        rw [hi]
        rfl
      rw [List.foldlM_cons, hstep, Outcome.bind_ok]
      apply ih
      · intro y hy
        rw [List.length_set]
        exact h1 y (List.mem_cons_of_mem _ hy)
      · intro i n hn
        by_cases hii : x.1.postsynapticNeuronIndex = i
        · subst hii
          rw [List.getElem?_set_self hlt] at hn
          cases hn
          exact ⟨n', hn'⟩
        · rw [List.getElem?_set_ne hii] at hn
          obtain ⟨m, hm⟩ := h2 i n hn
          rw [List.filter_cons_of_neg (by simp [mine, hii])] at hm
          exact ⟨m, hm⟩

/-- A loop over `lo, lo+1, …` that replaces element `i` by `f` of it. -/
private theorem pre_loop (k : Kind N F) : ∀ (len lo : Nat) (pop : List N), lo + len ≤ pop.length →
    (List.range' lo len).foldlM (preAt k) pop =
      Outcome.ok (pop.take lo ++ ((pop.drop lo).take len).map k.pre ++ pop.drop (lo + len)) := by
  intro len
  induction len with
  | zero => intro lo pop _; simp
  | succ len ih =>
    intro lo pop h
    have hlt : lo < pop.length := by omega
    have hstep : preAt k pop lo = Outcome.ok (pop.set lo (k.pre pop[lo])) := by
      unfold preAt
      rw [List.getElem?_eq_getElem hlt]
    rw [List.range'_succ, List.foldlM_cons, hstep, Outcome.bind_ok, ih (lo + 1) _ (by rw [List.length_set]; omega)]
    congr 1
    rw [List.set_eq_take_append_cons_drop, if_pos hlt]
    have hl : (pop.take lo).length = lo := by rw [List.length_take]; omega
    rw [List.take_append, List.drop_append, List.drop_append, hl]
    have e1 : lo + 1 - lo = 1 := by omega
    have e2 : lo + 1 + len - lo = len + 1 := by omega
    have e3 : pop.drop lo = pop[lo] :: pop.drop (lo + 1) := by
      rw [List.drop_eq_getElem_cons hlt]
    rw [e1, e2, e3]
    simp only [List.take_succ_cons, List.map_cons, List.take_zero, List.drop_succ_cons, List.drop_zero]
    rw [List.take_take, List.drop_take, List.drop_take]
    have e4 : min (lo + 1) lo = lo := by omega
    have e5 : lo - (lo + 1) = 0 := by omega
    have e6 : lo - (lo + 1 + len) = 0 := by omega
    rw [e4, e5, e6]
    simp
    rw [show lo + (len + 1) = lo + 1 + len by omega]

/-- The post-impact loop. -/
private theorem post_loop (k : Kind N F) : ∀ (len lo : Nat) (pop : List N) (acc : List Nat), lo + len ≤ pop.length →
    ∃ pop', (List.range' lo len).foldlM (postAt k) (pop, acc) = Outcome.ok (pop',
      acc ++ (List.range' lo len).filter (fun i => (pop[i]?.map (fun n => (k.post n).2)).getD false)) ∧
      pop'.length = pop.length ∧
      ∀ i, pop'[i]? = if lo ≤ i ∧ i < lo + len then pop[i]?.map (fun n => (k.post n).1) else pop[i]? := by
  intro len
  induction len with
  | zero =>
    intro lo pop acc _
    refine ⟨pop, by simp, rfl, fun i => ?_⟩
    rw [if_neg (by omega)]
  | succ len ih =>
    intro lo pop acc h
    have hlt : lo < pop.length := by omega
    have hget : pop[lo]? = some pop[lo] := List.getElem?_eq_getElem hlt
    have hstep : postAt k (pop, acc) lo = Outcome.ok (pop.set lo (k.post pop[lo]).1,
        if (k.post pop[lo]).2 then acc ++ [lo] else acc) := by
      unfold postAt
      rw [hget]
    obtain ⟨pop', e1, e2, e3⟩ := ih (lo + 1) (pop.set lo (k.post pop[lo]).1)
      (if (k.post pop[lo]).2 then acc ++ [lo] else acc) (by rw [List.length_set]; omega)
    refine ⟨pop', ?_, by rw [e2, List.length_set], ?_⟩
    · rw [List.range'_succ, List.foldlM_cons, hstep, Outcome.bind_ok, e1]
      have hf : (List.range' (lo + 1) len).filter (fun i => (((pop.set lo (k.post pop[lo]).1))[i]?.map
          (fun n => (k.post n).2)).getD false) =
          (List.range' (lo + 1) len).filter (fun i => (pop[i]?.map (fun n => (k.post n).2)).getD false) := by
        apply List.filter_congr
        intro i hi
        have := (List.mem_range'_1.1 hi).1
        rw [List.getElem?_set_ne (by omega)]
      rw [hf, List.filter_cons, hget]
      simp only [Option.map_some, Option.getD_some]
      by_cases hs : (k.post pop[lo]).2 = true
      · rw [if_pos hs, if_pos hs, List.append_assoc]; rfl
      · rw [if_neg hs, if_neg hs]
    · intro i
      rw [e3 i]
      by_cases hi : i = lo
      · subst hi
        rw [if_neg (by omega), if_pos (by omega), List.getElem?_set_self hlt, hget]
        rfl
      · rw [List.getElem?_set_ne (fun h => hi h.symm)]
        by_cases hc : lo + 1 ≤ i ∧ i < lo + 1 + len
        · rw [if_pos hc, if_pos (by omega)]
        · rw [if_neg hc, if_neg (by omega)]

private theorem pre_all (k : Kind N F) (pop : List N) :
    preImpact k pop 0 pop.length = Outcome.ok (pop.map k.pre) := by
  unfold preImpact
  rw [Nat.sub_zero, pre_loop k pop.length 0 pop (by omega)]
  simp

/-- The population step as one neuron step each; the exact condition for it to end normally. -/
private theorem step_char (k : Kind N F) (uid : UID) (step : Nat) (pop : List N)
    (msgs : List (SynapticImpactMessage F)) (pop' : List N) (sent : Option SpikeMessage)
    (h : stepPopulation k uid step pop msgs = .ok (pop', sent)) :
    ∃ p2, impactPopulation k (pop.map k.pre) msgs = .ok p2 ∧ p2.length = pop.length ∧
      pop' = p2.map (fun n => (k.post n).1) ∧
      sent = (if ((List.range pop.length).filter (fun i => (p2[i]?.map (fun n => (k.post n).2)).getD false)).isEmpty
        then none else some ⟨⟨uid, step⟩, (List.range pop.length).filter
          (fun i => (p2[i]?.map (fun n => (k.post n).2)).getD false)⟩) := by
  unfold stepPopulation at h
  rw [pre_all, Outcome.bind_ok] at h
  cases h1 : impactPopulation k (pop.map k.pre) msgs with
  | throw w => rw [h1] at h; simp at h
  | ub => rw [h1] at h; simp at h
  | ok p2 =>
    rw [h1, Outcome.bind_ok] at h
    have hl : p2.length = pop.length := by
      rw [impact_flat] at h1
      rw [(impacts_ok k _ _ _ h1).1, List.length_map]
    obtain ⟨q, e1, e2, e3⟩ := post_loop k p2.length 0 p2 [] (by omega)
    unfold postImpact at h
    rw [Nat.sub_zero, e1, Outcome.bind_ok] at h
    simp only [List.nil_append, Outcome.pure_eq, Outcome.ok.injEq, Prod.mk.injEq] at h
    have hq : q = p2.map (fun n => (k.post n).1) := by
      apply List.ext_getElem?
      intro i
      rw [e3 i, List.getElem?_map]
      split
      · rfl
      · rw [List.getElem?_eq_none (by omega)]
        rfl
    refine ⟨p2, rfl, hl, by rw [← h.1, hq], ?_⟩
    rw [← h.2, hl, List.range_eq_range']

/-- C55: if a population step ends normally then every neuron makes its own step with exactly the impacts addressed
to it, in order; the message carries the population and the step, and lists exactly the neurons that spiked,
ascending; it is sent exactly if there are any. -/
theorem C55_each_neuron (k : Kind N F) (uid : UID) (step : Nat) (pop pop' : List N)
    (msgs : List (SynapticImpactMessage F)) (sent : Option SpikeMessage)
    (h : stepPopulation k uid step pop msgs = .ok (pop', sent)) :
    pop'.length = pop.length ∧
    ∃ spiked : List Bool, spiked.length = pop.length ∧
      (∀ (i : Nat) (n : N), pop[i]? = some n → ∃ n' b, neuronStep k n (addressed i msgs) = .ok (n', b) ∧
        pop'[i]? = some n' ∧ spiked[i]? = some b) ∧
      sent = (if spiked.all (fun b => !b) then none
        else some ⟨⟨uid, step⟩, (List.range pop.length).filter (fun i => spiked[i]? == some true)⟩) := by
  obtain ⟨p2, h1, hl, hp, hs⟩ := step_char k uid step pop msgs pop' sent h
  refine ⟨by rw [hp, List.length_map, hl], p2.map (fun n => (k.post n).2), by rw [List.length_map, hl], ?_, ?_⟩
  · intro i n hn
    rw [impact_flat] at h1
    obtain ⟨_, _, h3⟩ := impacts_ok k _ _ _ h1
    obtain ⟨n', e1, e2⟩ := h3 i (k.pre n) (by rw [List.getElem?_map, hn]; rfl)
    refine ⟨(k.post n').1, (k.post n').2, ?_, ?_, ?_⟩
    · unfold neuronStep
      rw [addressed_eq, e1]
      rfl
    · rw [hp, List.getElem?_map, e2]; rfl
    · rw [List.getElem?_map, e2]; rfl
  · have hf : (List.range pop.length).filter (fun i => (p2[i]?.map (fun n => (k.post n).2)).getD false) =
        (List.range pop.length).filter (fun i => (p2.map (fun n => (k.post n).2))[i]? == some true) := by
      apply List.filter_congr
      intro i _
      rw [List.getElem?_map]
      cases p2[i]? with
      | none => rfl
      | some n => cases hb : (k.post n).2 <;> simp [hb]
    rw [hs, hf]
    have : ((List.range pop.length).filter (fun i => (p2.map (fun n => (k.post n).2))[i]? == some true)).isEmpty =
        (p2.map (fun n => (k.post n).2)).all (fun b => !b) := by
      apply Bool.eq_iff_iff.2
      rw [List.isEmpty_iff, List.filter_eq_nil_iff, List.all_eq_true]
      constructor
      · intro hh b hb
        obtain ⟨i, hi, he⟩ := List.getElem_of_mem hb
        have := hh i (by rw [List.mem_range]; simpa [hl] using hi)
        rw [List.getElem?_eq_getElem hi, he] at this
        simpa using this
      · intro hh i hi
        rw [List.mem_range, ← hl] at hi
        have hi' : i < (p2.map (fun n => (k.post n).2)).length := by simpa using hi
        have := hh _ (List.getElem_mem hi')
        rw [List.getElem?_eq_getElem hi']
        simpa using this
    rw [this]

/-- C55: the step ends normally exactly if every impact addresses a neuron of the population and every neuron accepts
the impacts addressed to it. -/
theorem C55_total (k : Kind N F) (uid : UID) (step : Nat) (pop : List N) (msgs : List (SynapticImpactMessage F)) :
    (stepPopulation k uid step pop msgs).isOk = true ↔
      (∀ m ∈ msgs, ∀ x ∈ m.impacts, x.postsynapticNeuronIndex < pop.length) ∧
      (∀ (i : Nat) (n : N), pop[i]? = some n → (neuronStep k n (addressed i msgs)).isOk = true) := by
  have hmem : (∀ m ∈ msgs, ∀ x ∈ m.impacts, x.postsynapticNeuronIndex < pop.length) ↔
      ∀ x ∈ flat msgs, x.1.postsynapticNeuronIndex < pop.length := by
    unfold flat
    simp only [List.mem_flatMap, List.mem_map]
    constructor
    · rintro h x ⟨m, hm, y, hy, rfl⟩
      exact h m hm y hy
    · intro h m hm x hx
      exact h (x, m.isForcing) ⟨m, hm, x, hx, rfl⟩
  constructor
  · intro h
    cases hs : stepPopulation k uid step pop msgs with
    | throw w => rw [hs] at h; simp [Outcome.isOk] at h
    | ub => rw [hs] at h; simp [Outcome.isOk] at h
    | ok r =>
      refine ⟨?_, ?_⟩
      · rw [hmem]
        obtain ⟨p2, h1, _⟩ := step_char k uid step pop msgs r.1 r.2 hs
        rw [impact_flat] at h1
        have := (impacts_ok k _ _ _ h1).2.1
        rwa [List.length_map] at this
      · intro i n hn
        obtain ⟨_, sp, _, h3, _⟩ := C55_each_neuron k uid step pop r.1 msgs r.2 hs
        obtain ⟨n', b, e, _⟩ := h3 i n hn
        rw [e]; rfl
  · rintro ⟨h1, h2⟩
    rw [hmem] at h1
    have hex : ∃ p2, (flat msgs).foldlM (fun p x => impactAt k p x.1 x.2) (pop.map k.pre) = Outcome.ok p2 := by
      apply impacts_total
      · rwa [List.length_map]
      · intro i n hn
        rw [List.getElem?_map] at hn
        cases hp : pop[i]? with
        | none => rw [hp] at hn; simp at hn
        | some a =>
          rw [hp] at hn
          simp at hn
          subst hn
          have := h2 i a hp
          unfold neuronStep at this
          rw [addressed_eq] at this
          cases hf : ((flat msgs).filter (mine i)).foldlM (fun m x => k.impact m x.1 x.2) (k.pre a) with
          | ok m => exact ⟨m, rfl⟩
          | throw w => rw [hf] at this; simp [Outcome.isOk] at this
          | ub => rw [hf] at this; simp [Outcome.isOk] at this
    obtain ⟨p2, hp2⟩ := hex
    rw [← impact_flat] at hp2
    unfold stepPopulation
    rw [pre_all, Outcome.bind_ok, hp2, Outcome.bind_ok]
    obtain ⟨q, e1, _, _⟩ := post_loop k p2.length 0 p2 [] (by omega)
    unfold postImpact
    rw [Nat.sub_zero, e1, Outcome.bind_ok]
    rfl

/-- Two LIF neurons, one message with impacts for both: the second spikes. -/
example : stepPopulation lif 7 3 [lifSample, lifSample]
    [⟨⟨9, 2⟩, 1, 7, false, [⟨0, 9, .excitatory, 0, 1⟩, ⟨1, 4, .excitatory, 0, 0⟩, ⟨2, 1, .inhibitoryCurrent, 0, 1⟩]⟩] =
    .ok ([⟨4, 1, 5, 1, 0, 2⟩, ⟨1, 1, 5, 1, 2, 2⟩], some ⟨⟨7, 3⟩, [1]⟩) := by decide

/-! ## C47 -/

private def remaining (ts : List Task) : List Nat := ts.flatMap (fun t => List.range' t.cur (t.stop - t.cur))

private def pending (ts : List Task) : List Nat := ts.flatMap (fun t => if t.done then [] else t.buffer)

private theorem set_flatMap {α β : Type} (f : α → List β) : ∀ (ts : List α) (t : Nat) (a : α), ts[t]? = some a →
    ∃ R, (ts.flatMap f).Perm (f a ++ R) ∧ ∀ x, ((ts.set t x).flatMap f).Perm (f x ++ R) := by
  intro ts
  induction ts with
  | nil => intro t a h; simp at h
  | cons b ts ih =>
    intro t a h
    cases t with
    | zero =>
      simp at h
      subst h
      exact ⟨ts.flatMap f, by simp, fun x => by simp⟩
    | succ t =>
      obtain ⟨R, h1, h2⟩ := ih t a (by simpa using h)
      refine ⟨f b ++ R, ?_, fun x => ?_⟩
      · rw [List.flatMap_cons]
        exact (List.Perm.append_left _ h1).trans
          (by rw [← List.append_assoc, ← List.append_assoc]; exact List.Perm.append_right _ List.perm_append_comm)
      · rw [List.set_cons_succ, List.flatMap_cons]
        exact (List.Perm.append_left _ (h2 x)).trans
          (by rw [← List.append_assoc, ← List.append_assoc]; exact List.Perm.append_right _ List.perm_append_comm)

/-- What holds at every moment of a parallel phase that replaces each neuron `n` by `f n`; `spk` tells the neurons
that spike. -/
private structure Inv (f : N → N) (p0 : List N) (s : Par N) : Prop where
  len : s.pop.length = p0.length
  nodup : (remaining s.tasks).Nodup
  inside : ∀ i ∈ remaining s.tasks, i < p0.length
  pop : ∀ i, s.pop[i]? = if i ∈ remaining s.tasks then p0[i]? else p0[i]?.map f
  ended : ∀ t ∈ s.tasks, t.done = true → t.stop ≤ t.cur

/-- Moving one task over one neuron keeps the invariant. -/
private theorem inv_advance {f : N → N} {p0 : List N} {s : Par N} (h : Inv f p0 s) (t : Nat) (task : Task)
    (ht : s.tasks[t]? = some task) (hd : task.done = false) (hlt : task.cur < task.stop) (buf : List Nat) (sp : List Nat) :
    ∃ n, s.pop[task.cur]? = some n ∧ p0[task.cur]? = some n ∧
      Inv f p0 ⟨s.pop.set task.cur (f n), sp, s.tasks.set t { task with cur := task.cur + 1, buffer := buf }⟩ ∧
      (remaining s.tasks).Perm (task.cur :: remaining (s.tasks.set t { task with cur := task.cur + 1, buffer := buf })) := by
  obtain ⟨R, h1, h2⟩ := set_flatMap (fun t : Task => List.range' t.cur (t.stop - t.cur)) s.tasks t task ht
  have h2' := h2 { task with cur := task.cur + 1, buffer := buf }
  have hr : List.range' task.cur (task.stop - task.cur) =
      task.cur :: List.range' (task.cur + 1) (task.stop - (task.cur + 1)) := by
    rw [show task.stop - task.cur = (task.stop - (task.cur + 1)) + 1 by omega, List.range'_succ]
  simp only at h1 h2'
  rw [hr] at h1
  have hperm : (remaining s.tasks).Perm
      (task.cur :: remaining (s.tasks.set t { task with cur := task.cur + 1, buffer := buf })) :=
    h1.trans (List.Perm.cons _ h2'.symm)
  have hnd : (task.cur :: remaining (s.tasks.set t { task with cur := task.cur + 1, buffer := buf })).Nodup :=
    hperm.nodup_iff.1 h.nodup
  have hin : task.cur ∈ remaining s.tasks := hperm.mem_iff.2 (by simp)
  have hlt0 : task.cur < p0.length := h.inside _ hin
  have hcur := h.pop task.cur
  rw [if_pos hin, List.getElem?_eq_getElem hlt0] at hcur
  refine ⟨p0[task.cur], hcur, List.getElem?_eq_getElem hlt0, ?_, hperm⟩
  refine ⟨by rw [List.length_set]; exact h.len, (List.nodup_cons.1 hnd).2,
    fun i hi => h.inside i (hperm.mem_iff.2 (List.mem_cons_of_mem _ hi)), ?_, ?_⟩
  · intro i
    have hpi := h.pop i
    by_cases hi : i = task.cur
    · subst hi
      rw [List.getElem?_set_self (by rw [h.len]; exact hlt0), if_neg (List.nodup_cons.1 hnd).1,
        List.getElem?_eq_getElem hlt0]
      rfl
    · rw [List.getElem?_set_ne (fun e => hi e.symm), hpi]
      have : i ∈ remaining s.tasks ↔
          i ∈ remaining (s.tasks.set t { task with cur := task.cur + 1, buffer := buf }) := by
        rw [hperm.mem_iff, List.mem_cons]
        exact ⟨fun h => h.resolve_left hi, Or.inr⟩
      by_cases hm : i ∈ remaining s.tasks
      · rw [if_pos hm, if_pos (this.1 hm)]
      · rw [if_neg hm, if_neg (fun e => hm (this.2 e))]
  · intro x hx hxd
    rcases List.mem_or_eq_of_mem_set hx with hx | hx
    · exact h.ended x hx hxd
    · rw [hx] at hxd; simp [hd] at hxd

/-- Ending a task keeps the invariant. -/
private theorem inv_end {f : N → N} {p0 : List N} {s : Par N} (h : Inv f p0 s) (t : Nat) (task : Task)
    (ht : s.tasks[t]? = some task) (hge : ¬ task.cur < task.stop) (sp : List Nat) :
    Inv f p0 ⟨s.pop, sp, s.tasks.set t { task with done := true }⟩ ∧
      (remaining (s.tasks.set t { task with done := true })) = remaining s.tasks := by
  have hrem : remaining (s.tasks.set t { task with done := true }) = remaining s.tasks := by
    unfold remaining
    rw [List.flatMap_def, List.flatMap_def, List.map_set]
    congr 1
    apply List.ext_getElem?
    intro j
    by_cases hj : j = t
    · subst hj
      have hlt := (List.getElem?_eq_some_iff.1 ht).1
      rw [List.getElem?_set_self (by simpa using hlt), List.getElem?_map, ht]
      rfl
    · rw [List.getElem?_set_ne (fun e => hj e.symm)]
  refine ⟨⟨h.len, by rw [hrem]; exact h.nodup, by rw [hrem]; exact h.inside, by rw [hrem]; exact h.pop, ?_⟩, hrem⟩
  intro x hx hxd
  rcases List.mem_or_eq_of_mem_set hx with hx | hx
  · exact h.ended x hx hxd
  · rw [hx]
    simp only
    omega

private theorem inv_pre (k : Kind N F) (p0 : List N) (s : Par N) (t : Nat) (h : Inv k.pre p0 s) :
    Inv k.pre p0 (preMove k s t) := by
  unfold preMove
  cases ht : s.tasks[t]? with
  | none => exact h
  | some task =>
    simp only
    cases hd : task.done with
    | true => exact h
    | false =>
      rw [if_neg (by simp)]
      by_cases hlt : task.cur < task.stop
      · rw [if_pos hlt]
        obtain ⟨n, h1, _, h2, _⟩ := inv_advance h t task ht hd hlt task.buffer s.spikes
        rw [h1]
        exact hd ▸ h2
      · rw [if_neg hlt]
        exact (inv_end h t task ht hlt s.spikes).1

private def spk (k : Kind N F) (p0 : List N) (i : Nat) : Bool := (p0[i]?.map (fun n => (k.post n).2)).getD false

private theorem inv_post (k : Kind N F) (p0 : List N) (s : Par N) (t : Nat) (h : Inv (fun n => (k.post n).1) p0 s)
    (hs : (s.spikes ++ pending s.tasks ++ (remaining s.tasks).filter (spk k p0)).Perm
      ((List.range p0.length).filter (spk k p0))) :
    Inv (fun n => (k.post n).1) p0 (postMove k s t) ∧
    ((postMove k s t).spikes ++ pending (postMove k s t).tasks ++
      (remaining (postMove k s t).tasks).filter (spk k p0)).Perm ((List.range p0.length).filter (spk k p0)) := by
  unfold postMove
  cases ht : s.tasks[t]? with
  | none => exact ⟨h, hs⟩
  | some task =>
    simp only
    cases hd : task.done with
    | true => exact ⟨h, hs⟩
    | false =>
      rw [if_neg (by simp)]
      obtain ⟨R, q1, q2⟩ := set_flatMap (fun t : Task => if t.done then [] else t.buffer) s.tasks t task ht
      simp only [hd] at q1
      rw [if_neg (by simp)] at q1
      by_cases hlt : task.cur < task.stop
      · rw [if_pos hlt]
        generalize hbuf : (fun n : N => if (k.post n).2 then task.buffer ++ [task.cur] else task.buffer) = bf
        obtain ⟨n, h1, h0, _, _⟩ := inv_advance h t task ht hd hlt [] s.spikes
        obtain ⟨n', h1', h0', h2, h3⟩ := inv_advance h t task ht hd hlt (bf n) s.spikes
        have hnn : n' = n := by rw [h1] at h1'; exact (Option.some.inj h1').symm
        subst hnn
        rw [h1]
        simp only
        have hbn : (if (k.post n').2 then task.buffer ++ [task.cur] else task.buffer) = bf n' := by rw [← hbuf]
        rw [hbn]
        refine ⟨hd ▸ h2, ?_⟩
        have q2' : (pending (s.tasks.set t { task with cur := task.cur + 1, buffer := bf n' })).Perm (bf n' ++ R) := by
          have := q2 { task with cur := task.cur + 1, buffer := bf n' }
          rwa [if_neg (by simp [hd])] at this
        refine List.Perm.trans ?_ hs
        have hp3 := h3.filter (spk k p0)
        have hspk : spk k p0 task.cur = (k.post n').2 := by
          unfold spk
          rw [h0']
          rfl
        rw [List.filter_cons, hspk] at hp3
        rw [← hd]
        refine (List.Perm.append_right _ (List.Perm.append_left _ q2')).trans ?_
        refine List.Perm.trans ?_ ((List.Perm.append_left _ hp3).trans
          (List.Perm.append_right _ (List.Perm.append_left _ q1))).symm
        rw [← hbuf]
        simp only
        by_cases hsp : (k.post n').2 = true
        · rw [if_pos hsp, if_pos hsp]
          simp only [List.append_assoc]
          refine List.Perm.append_left _ (List.Perm.append_left _ ?_)
          simp only [List.singleton_append]
          exact (List.perm_middle).symm
        · rw [if_neg hsp, if_neg hsp]
      · rw [if_neg hlt]
        obtain ⟨e1, e2⟩ := inv_end h t task ht hlt (s.spikes ++ task.buffer)
        refine ⟨e1, ?_⟩
        simp only
        rw [e2]
        refine List.Perm.trans ?_ hs
        refine List.Perm.append_right _ ?_
        have q2' := q2 { task with done := true }
        simp only [if_true, List.nil_append] at q2'
        rw [List.append_assoc]
        exact List.Perm.append_left _ ((List.Perm.append_left _ q2').trans q1.symm)

private theorem done_remaining {f : N → N} {p0 : List N} {s : Par N} (h : Inv f p0 s) (hd : allDone s.tasks = true) :
    remaining s.tasks = [] ∧ pending s.tasks = [] ∧ s.pop = p0.map f := by
  unfold allDone at hd
  rw [List.all_eq_true] at hd
  have hr : remaining s.tasks = [] := by
    unfold remaining
    rw [List.flatMap_eq_nil_iff]
    intro t ht
    have := h.ended t ht (hd t ht)
    rw [show t.stop - t.cur = 0 by omega]
    rfl
  refine ⟨hr, ?_, ?_⟩
  · unfold pending
    rw [List.flatMap_eq_nil_iff]
    intro t ht
    rw [if_pos (hd t ht)]
  · apply List.ext_getElem?
    intro i
    rw [h.pop i, hr, if_neg (by simp), List.getElem?_map]

private theorem posted (size part : Nat) (hp : 1 ≤ part) (hp2 : part < two64) (hsz : size ≤ 2 ^ 63) :
    ∃ ts, postedTasks size part = some ts ∧ remaining ts = List.range size ∧ pending ts = [] ∧
      ∀ t ∈ ts, t.done = false := by
  obtain ⟨starts, h1, h2⟩ := C46_partition size part hp hp2 hsz
  refine ⟨starts.map (fun lo => ⟨lo, Delta.partEnd size part lo, [], false⟩), ?_, ?_, ?_, ?_⟩
  · unfold postedTasks; rw [h1]; rfl
  · unfold remaining
    rw [List.flatMap_map]
    exact h2
  · unfold pending
    rw [List.flatMap_map, List.flatMap_eq_nil_iff]
    intro x _
    rfl
  · intro t ht
    obtain ⟨lo, _, rfl⟩ := List.mem_map.1 ht
    rfl

private theorem inv_start (f : N → N) (p0 : List N) (ts : List Task) (hr : remaining ts = List.range p0.length)
    (hd : ∀ t ∈ ts, t.done = false) : Inv f p0 ⟨p0, [], ts⟩ := by
  refine ⟨rfl, by rw [hr]; exact List.nodup_range, ?_, ?_, ?_⟩
  · intro i hi
    rw [hr] at hi
    exact List.mem_range.1 hi
  · intro i
    rw [hr]
    by_cases hi : i < p0.length
    · rw [if_pos (List.mem_range.2 hi)]
    · rw [if_neg (fun e => hi (List.mem_range.1 e)), List.getElem?_eq_none (by show p0.length ≤ i; omega)]
      rfl
  · intro t ht h
    rw [hd t ht] at h
    exact absurd h (by simp)

private theorem pre_schedule (k : Kind N F) (p0 : List N) : ∀ (sched : List Nat) (s : Par N), Inv k.pre p0 s →
    Inv k.pre p0 (sched.foldl (preMove k) s) := by
  intro sched
  induction sched with
  | nil => intro s h; exact h
  | cons t rest ih => intro s h; exact ih _ (inv_pre k p0 s t h)

private theorem post_schedule (k : Kind N F) (p0 : List N) : ∀ (sched : List Nat) (s : Par N),
    Inv (fun n => (k.post n).1) p0 s →
    (s.spikes ++ pending s.tasks ++ (remaining s.tasks).filter (spk k p0)).Perm
      ((List.range p0.length).filter (spk k p0)) →
    Inv (fun n => (k.post n).1) p0 (sched.foldl (postMove k) s) ∧
    ((sched.foldl (postMove k) s).spikes ++ pending (sched.foldl (postMove k) s).tasks ++
      (remaining (sched.foldl (postMove k) s).tasks).filter (spk k p0)).Perm
      ((List.range p0.length).filter (spk k p0)) := by
  intro sched
  induction sched with
  | nil => intro s h hs; exact ⟨h, hs⟩
  | cons t rest ih =>
    intro s h hs
    obtain ⟨a, b⟩ := inv_post k p0 s t h hs
    exact ih _ a b

/-- Two spike messages with the same header that list the same neurons, possibly in another order; or none. -/
def SameSpikes (a b : Option SpikeMessage) : Prop :=
  (a = none ∧ b = none) ∨ ∃ x y : SpikeMessage, a = some x ∧ b = some y ∧ x.header = y.header ∧
    x.neuronIndexes.Perm y.neuronIndexes

/-- C47: for every population, part size, impact messages and all schedules of the parallel tasks that run to their
end, the multi-threaded step ends as the sequential one: same exception or undefined behaviour, or the same neuron
states and a spike message with the same neurons. -/
theorem C47_schedule_independent (k : Kind N F) (uid : UID) (step part : Nat) (pop : List N)
    (msgs : List (SynapticImpactMessage F)) (sched1 sched2 : List Nat)
    (r : Outcome (List N × Option SpikeMessage)) (hp : 1 ≤ part) (hp2 : part < two64) (hsz : pop.length ≤ 2 ^ 63)
    (h : multiPopulation k uid step part pop msgs sched1 sched2 = some r) :
    match r, stepPopulation k uid step pop msgs with
    | .ok (p1, m1), .ok (p2, m2) => p1 = p2 ∧ SameSpikes m1 m2
    | .throw w1, .throw w2 => w1 = w2
    | .ub, .ub => True
    | _, _ => False := by
  obtain ⟨ts, e1, e2, e3, e4⟩ := posted pop.length part hp hp2 hsz
  unfold multiPopulation at h
  rw [e1] at h
  simp only at h
  have i1 := pre_schedule k pop sched1 _ (inv_start k.pre pop ts e2 e4)
  split at h
  · rename_i hd1
    obtain ⟨_, _, hpop⟩ := done_remaining i1 hd1
    rw [hpop] at h
    have hstep : stepPopulation k uid step pop msgs = (impactPopulation k (pop.map k.pre) msgs >>= fun p2 =>
        (postImpact k p2 [] 0 p2.length >>= fun r =>
          pure (r.1, if r.2.isEmpty then none else some ⟨⟨uid, step⟩, r.2⟩))) := by
      unfold stepPopulation
      rw [pre_all, Outcome.bind_ok]
    cases hi : impactPopulation k (pop.map k.pre) msgs with
    | throw w =>
      rw [hi] at h hstep
      simp only [Option.some.injEq] at h
      subst h
      rw [hstep]
      rfl
    | ub =>
      rw [hi] at h hstep
      simp only [Option.some.injEq] at h
      subst h
      rw [hstep]
      trivial
    | ok p2 =>
      rw [hi] at h
      simp only at h
      split at h
      · rename_i hd2
        have hl : p2.length = pop.length := by
          rw [impact_flat] at hi
          rw [(impacts_ok k _ _ _ hi).1, List.length_map]
        have hok : (stepPopulation k uid step pop msgs).isOk = true := by
          rw [hstep, hi, Outcome.bind_ok]
          obtain ⟨q, e1, _, _⟩ := post_loop k p2.length 0 p2 [] (by omega)
          unfold postImpact
          rw [Nat.sub_zero, e1, Outcome.bind_ok]
          rfl
        cases hs : stepPopulation k uid step pop msgs with
        | throw w => rw [hs] at hok; simp [Outcome.isOk] at hok
        | ub => rw [hs] at hok; simp [Outcome.isOk] at hok
        | ok rr =>
          obtain ⟨p2', g1, g2, g3, g4⟩ := step_char k uid step pop msgs rr.1 rr.2 hs
          rw [hi] at g1
          cases g1
          simp only [Option.some.injEq] at h
          subst h
          have e2' : remaining ts = List.range p2.length := by rw [e2, hl]
          obtain ⟨i2, s2⟩ := post_schedule k p2 sched2 _ (inv_start (fun n => (k.post n).1) p2 ts e2' e4)
            (by simp only; rw [e3, e2']; exact List.Perm.refl _)
          obtain ⟨r1, r2, r3⟩ := done_remaining i2 hd2
          rw [r1, r2] at s2
          simp only [List.append_nil, List.filter_nil] at s2
          generalize hfin : sched2.foldl (postMove k) ⟨p2, [], ts⟩ = fin at *
          have hsp : (List.range pop.length).filter (fun i => (p2[i]?.map (fun n => (k.post n).2)).getD false) =
              (List.range p2.length).filter (spk k p2) := by rw [hl]; rfl
          rw [hsp] at g4
          refine ⟨by rw [r3, g3], ?_⟩
          unfold SameSpikes
          rw [g4]
          have hemp : fin.spikes.isEmpty = ((List.range p2.length).filter (spk k p2)).isEmpty := by
            apply Bool.eq_iff_iff.2
            rw [List.isEmpty_iff, List.isEmpty_iff]
            constructor
            · intro hh; rw [hh] at s2; exact s2.symm.eq_nil
            · intro hh; rw [hh] at s2; exact s2.eq_nil
          by_cases hc : fin.spikes.isEmpty = true
          · left
            rw [if_pos hc, if_pos (by rw [← hemp]; exact hc)]
            exact ⟨rfl, rfl⟩
          · right
            rw [if_neg hc, if_neg (by rw [← hemp]; exact hc)]
            exact ⟨_, _, rfl, rfl, rfl, s2⟩
      · exact absurd h (by simp)
  · exact absurd h (by simp)

/-- The moves a task still has to make. -/
def movesLeft (ts : List Task) : Nat :=
  (ts.map (fun t => if t.done then 0 else (t.stop - t.cur) + 1)).sum

private theorem movesLeft_set (ts : List Task) (t : Nat) (a x : Task) (h : ts[t]? = some a)
    (hlt : (if x.done then 0 else (x.stop - x.cur) + 1) < (if a.done then 0 else (a.stop - a.cur) + 1)) :
    movesLeft (ts.set t x) < movesLeft ts := by
  induction ts generalizing t with
  | nil => simp at h
  | cons b ts ih =>
    unfold movesLeft at ih ⊢
    cases t with
    | zero => simp at h; subst h; simp only [List.set_cons_zero, List.map_cons, List.sum_cons]; omega
    | succ t =>
      have := ih t (by simpa using h)
      simp only [List.set_cons_succ, List.map_cons, List.sum_cons]
      omega

/-- C47, progress: in every state that any schedule leads to, every unfinished task can move, and each such move
brings the phase nearer to its end (so every fair schedule completes). -/
theorem C47_progress (k : Kind N F) (part : Nat) (pop : List N) (ts : List Task) (sched : List Nat) (t : Nat)
    (task : Task) (hp : 1 ≤ part) (hp2 : part < two64) (hsz : pop.length ≤ 2 ^ 63)
    (hts : postedTasks pop.length part = some ts) :
    (let s := sched.foldl (preMove k) ⟨pop, [], ts⟩
     s.tasks[t]? = some task → task.done = false → movesLeft (preMove k s t).tasks < movesLeft s.tasks) ∧
    (let s := sched.foldl (postMove k) ⟨pop, [], ts⟩
     s.tasks[t]? = some task → task.done = false → movesLeft (postMove k s t).tasks < movesLeft s.tasks) := by
  obtain ⟨ts', e1, e2, e3, e4⟩ := posted pop.length part hp hp2 hsz
  rw [hts] at e1
  cases e1
  constructor
  · intro s ht hd
    have i1 : Inv k.pre pop s := pre_schedule k pop sched _ (inv_start k.pre pop ts e2 e4)
    unfold preMove
    rw [ht]
    simp only [hd]
    rw [if_neg (by simp)]
    by_cases hlt : task.cur < task.stop
    · rw [if_pos hlt]
      obtain ⟨n, h1, _⟩ := inv_advance i1 t task ht hd hlt [] []
      rw [h1]
      exact movesLeft_set _ _ task _ ht (by simp [hd]; omega)
    · rw [if_neg hlt]
      exact movesLeft_set _ _ task _ ht (by simp [hd])
  · intro s ht hd
    have i1 : Inv (fun n => (k.post n).1) pop s :=
      (post_schedule k pop sched _ (inv_start (fun n => (k.post n).1) pop ts e2 e4)
        (by simp only; rw [e3, e2]; exact List.Perm.refl _)).1
    unfold postMove
    rw [ht]
    simp only [hd]
    rw [if_neg (by simp)]
    by_cases hlt : task.cur < task.stop
    · rw [if_pos hlt]
      obtain ⟨n, h1, _⟩ := inv_advance i1 t task ht hd hlt [] []
      rw [h1]
      exact movesLeft_set _ _ task _ ht (by simp [hd]; omega)
    · rw [if_neg hlt]
      exact movesLeft_set _ _ task _ ht (by simp [hd])

/-- Three neurons in parts of two; the second task appends its spikes first. -/
example : multiPopulation lif 7 3 2 [lifSample, lifSample, lifSample]
    [⟨⟨9, 2⟩, 1, 7, false, [⟨0, 9, .excitatory, 0, 2⟩, ⟨1, 8, .excitatory, 0, 1⟩]⟩]
    [1, 0, 0, 1, 0] [0, 1, 1, 0, 0] =
    some (.ok ([⟨0, 1, 5, 1, 0, 2⟩, ⟨1, 1, 5, 1, 2, 2⟩, ⟨1, 1, 5, 1, 2, 2⟩], some ⟨⟨7, 3⟩, [2, 1]⟩)) := by
  decide +kernel

end Knp.Props
