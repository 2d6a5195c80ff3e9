import Verif.Lemmas.SystemMulti
import Verif.Props.System
import Verif.Props.PopStep
import Mathlib.Data.List.Forall2

/-! # C106, C107: a whole network on the multi-threaded backend -/

namespace Knp.Props
open Knp Knp.Bus Knp.Spec Knp.Neurons

variable {N F : Type}

/-! ## C106 -/

/-- What of a multi-threaded run can be seen. -/
def visibleM : Option (Outcome (Sys.State N F × List (Sys.StepOut F))) →
    Option (Outcome ((List (Sys.PopSt N F) × List (Sys.ProjSt F)) × List (Sys.StepOut F))) :=
  Option.map visible

/-- C106. On the multi-threaded backend, loaded and initialised, a run of any length under any schedule of the threads
computes the dataflow: populations are given exactly the impact messages the projections into them sent in the step before (and,
one step later than on the single-threaded backend, what the rest of the program sent under such a name); projections are
given exactly what their source population and their input channels send in the same step. -/
theorem C106_dataflow (c : Sys.Config F) (pops : List (Sys.PopSt N F)) (projs : List (Delta.Ident × Delta.Proj F))
    (inputs : List (UID × UID)) (chans : Nat) (hnp : (pops.map (·.uid)).Nodup) (hnj : (projs.map (·.1.uid)).Nodup)
    (envs : List (Sys.Env F × Sys.Sched)) (hf : ∀ env ∈ envs, ∀ op ∈ env.1, Foreign chans op) :
    visibleM (Sys.runMulti c (Sys.boot pops projs inputs chans) envs) =
      flowRunM c (hearingOf projs inputs) 0 pops (projs.map fun j => ⟨j.1, j.2, []⟩) []
        (envs.map fun e => (extOf chans e.1, e.2)) := by
  obtain ⟨e0, hb⟩ := Sys.boot_between pops projs inputs chans
  have hp : (Sys.boot pops projs inputs chans).pops = pops := rfl
  have hj : (Sys.boot pops projs inputs chans).projs = projs.map fun j => ⟨j.1, j.2, []⟩ := rfl
  have hs : (Sys.boot pops projs inputs chans).step = 0 := rfl
  have := Sys.runM_spec c envs _ [] e0 hb (by rw [hp]; exact hnp) (by rw [hj, List.map_map]; exact hnj) hf
  rw [hp, hj, hs] at this
  rcases hr : flowRunM c (hearingOf projs inputs) 0 pops (projs.map fun j => ⟨j.1, j.2, []⟩) []
    (envs.map fun e => (extOf chans e.1, e.2)) with _ | (x | w | _)
  all_goals rw [hr] at this; rw [hr]; simp only at this
  · rw [this]; rfl
  · obtain ⟨st, os⟩ := x
    obtain ⟨s', h1, h2, h3, _⟩ := this
    rw [h1]
    simp only [visibleM, Option.map_some, visible, h2, h3]
  · rw [this]; rfl
  · rw [this]; rfl

/-! ## C107: both backends compute the same -/

/-- Impact messages that differ at most in the order of their impacts (and in the two population UIDs, which the
multi-threaded backend swaps, C48). -/
def SameImpactMsg (a b : SynapticImpactMessage F) : Prop :=
  a.header = b.header ∧ a.isForcing = b.isForcing ∧ a.impacts.Perm b.impacts

/-- Spike messages that differ at most in the order of the neurons. -/
def SameSpikeMsg (a b : SpikeMessage) : Prop := a.header = b.header ∧ a.neuronIndexes.Perm b.neuronIndexes

/-- What the two backends do in one step. -/
structure SameStep (a b : Sys.StepOut F) : Prop where
  given : List.Forall₂ (fun x y => x.1 = y.1 ∧ List.Forall₂ SameImpactMsg x.2 y.2) a.given b.given
  spikes : List.Forall₂ SameSpikeMsg a.spikes b.spikes
  heard : List.Forall₂ (fun x y => x.1 = y.1 ∧ List.Forall₂ SameSpikeMsg x.2 y.2) a.heard b.heard
  impacts : List.Forall₂ SameImpactMsg a.impacts b.impacts

/-- The order of two impacts of one message does not matter to a neuron (unless one of them blocks it). -/
def Commutes (k : Kind N F) : Prop :=
  ∀ (n : N) (a b : SynapticImpact F) (f : Bool) (r : N), a.synapseType ≠ .blocking → b.synapseType ≠ .blocking →
    (k.impact n a f).bind (fun m => k.impact m b f) = .ok r → (k.impact n b f).bind (fun m => k.impact m a f) = .ok r

/-- Addition and subtraction without rounding, as far as the order of summands goes. -/
structure Unrounded (F : Type) [Arith F] : Prop where
  add_add : ∀ a b c : F, a + b + c = a + c + b
  sub_add : ∀ a b c : F, a - b + c = a + c - b
  sub_sub : ∀ a b c : F, a - b - c = a - c - b

/-- C107: with exact arithmetic no neuron type depends on the order of the impacts. -/
theorem C107_kinds_commute [Arith F] (h : Unrounded F) :
    Commutes (lif (F := F)) ∧ Commutes (blifat (F := F)) ∧ Commutes (altai (F := F)) ∧ Commutes (resBlifat (F := F)) ∧
    Commutes (resAltai (F := F)) := by
  have h1 := h.add_add; have h2 := h.sub_add; have h3 := h.sub_sub
  have hb : Commutes (blifat (F := F)) := by
    intro n a b f r ha hb
    obtain ⟨i1, v1, t1, s1, d1⟩ := a
    obtain ⟨i2, v2, t2, s2, d2⟩ := b
    simp only at ha hb
    cases t1 <;> cases t2 <;> (try exact absurd rfl ha) <;> (try exact absurd rfl hb) <;>
      simp only [blifat, blifatImpact, Outcome.bind, Outcome.ok.injEq] <;> intro hr <;> rw [← hr] <;>
      first
        | rfl
        | rw [h1]
        | rw [h2]
        | rw [← h2]
        | rw [h3]
  have ha : Commutes (altai (F := F)) := by
    intro n a b f r ha hb
    obtain ⟨i1, v1, t1, s1, d1⟩ := a
    obtain ⟨i2, v2, t2, s2, d2⟩ := b
    simp only at ha hb
    cases t1 <;> cases t2 <;> (try exact absurd rfl ha) <;> (try exact absurd rfl hb) <;>
      simp only [altai, altaiImpact, Outcome.bind, reduceCtorEq, Outcome.ok.injEq, IsEmpty.forall_iff] <;> intro hr <;> rw [← hr] <;>
      first
        | rfl
        | rw [h1]
        | rw [h2]
        | rw [← h2]
        | rw [h3]
  refine ⟨?_, hb, ha, ?_, ?_⟩
  · intro n a b f r ha hb
    obtain ⟨i1, v1, t1, s1, d1⟩ := a
    obtain ⟨i2, v2, t2, s2, d2⟩ := b
    simp only at ha hb
    by_cases hc : n.counter = 0
    · cases t1 <;> cases t2 <;> (try exact absurd rfl ha) <;> (try exact absurd rfl hb) <;>
        simp only [lif, lifImpact, Outcome.bind, reduceCtorEq, Outcome.ok.injEq, IsEmpty.forall_iff, hc, if_pos] <;> intro hr <;> rw [← hr] <;>
        first
          | rfl
          | rw [h1]
          | rw [h2]
          | rw [← h2]
          | rw [h3]
    · cases t1 <;> cases t2 <;> simp only [lif, lifImpact, Outcome.bind, reduceCtorEq, Outcome.ok.injEq, IsEmpty.forall_iff, if_neg hc] <;> exact id
  · intro n a b f r ha' hb'
    have := hb n.base a b f
    simp only [blifat] at this
    simp only [resBlifat]
    unfold resBlifatImpact
    intro hr
    cases hx : blifatImpact n.base a f with
    | throw w => rw [hx] at hr; cases hr
    | ub => rw [hx] at hr; cases hr
    | ok x =>
      rw [hx] at hr
      cases hy : blifatImpact x b f with
      | throw w => simp [Outcome.bind, Bind.bind, Pure.pure, hy] at hr
      | ub => simp [Outcome.bind, Bind.bind, Pure.pure, hy] at hr
      | ok y =>
        have hq := this y ha' hb' (by rw [hx]; exact hy)
        cases hz : blifatImpact n.base b f with
        | throw w => rw [hz] at hq; cases hq
        | ub => rw [hz] at hq; cases hq
        | ok z =>
          rw [hz] at hq
          have hq' : blifatImpact z a f = .ok y := hq
          simp only [Outcome.bind, Bind.bind, Pure.pure, hy, hq'] at hr ⊢
          rw [← hr]
          by_cases e1 : a.synapseType = .excitatory <;> by_cases e2 : b.synapseType = .excitatory <;> simp [e1, e2]
  · intro n a b f r ha' hb'
    have := ha n.base a b f
    simp only [altai] at this
    simp only [resAltai]
    unfold resAltaiImpact
    intro hr
    cases hx : altaiImpact n.base a f with
    | throw w => rw [hx] at hr; cases hr
    | ub => rw [hx] at hr; cases hr
    | ok x =>
      rw [hx] at hr
      cases hy : altaiImpact x b f with
      | throw w => simp [Outcome.bind, Bind.bind, Pure.pure, hy] at hr
      | ub => simp [Outcome.bind, Bind.bind, Pure.pure, hy] at hr
      | ok y =>
        have hq := this y ha' hb' (by rw [hx]; exact hy)
        cases hz : altaiImpact n.base b f with
        | throw w => rw [hz] at hq; cases hq
        | ub => rw [hz] at hq; cases hq
        | ok z =>
          rw [hz] at hq
          have hq' : altaiImpact z a f = .ok y := hq
          simp only [Outcome.bind, Bind.bind, Pure.pure, hy, hq'] at hr ⊢
          rw [← hr]
          by_cases e1 : a.synapseType = .excitatory <;> by_cases e2 : b.synapseType = .excitatory <;> simp [e1, e2]

theorem obindE {α β : Type} (x : Outcome α) (f : α → Outcome β) (r : β) (h : x.bind f = .ok r) :
    ∃ y, x = .ok y ∧ f y = .ok r := by
  cases x with
  | ok y => exact ⟨y, rfl, h⟩
  | throw w => cases h
  | ub => cases h

private theorem impactAt_inv (k : Kind N F) (q r : List N) (a : SynapticImpact F) (f : Bool)
    (h : impactAt k q a f = .ok r) : ∃ n n', q[a.postsynapticNeuronIndex]? = some n ∧ k.impact n a f = .ok n' ∧
      r = q.set a.postsynapticNeuronIndex n' := by
  unfold impactAt at h
  cases hn : q[a.postsynapticNeuronIndex]? with
  | none => rw [hn] at h; cases h
  | some n =>
    rw [hn] at h
    obtain ⟨n', h1, h2⟩ := obindE _ _ _ h
    exact ⟨n, n', rfl, h1, (Outcome.ok.inj h2).symm⟩

private theorem impactAt_intro (k : Kind N F) (q : List N) (a : SynapticImpact F) (f : Bool) (n n' : N)
    (h1 : q[a.postsynapticNeuronIndex]? = some n) (h2 : k.impact n a f = .ok n') :
    impactAt k q a f = .ok (q.set a.postsynapticNeuronIndex n') := by
  unfold impactAt
  rw [h1]
  simp only
  rw [h2]
  rfl

private theorem impactAt_comm (k : Kind N F) (hk : Commutes k) (q r : List N) (a b : SynapticImpact F) (f : Bool)
    (ha : a.synapseType ≠ .blocking) (hb : b.synapseType ≠ .blocking)
    (h : (impactAt k q a f).bind (fun x => impactAt k x b f) = .ok r) :
    (impactAt k q b f).bind (fun x => impactAt k x a f) = .ok r := by
  obtain ⟨y, h1, h2⟩ := obindE _ _ _ h
  obtain ⟨n, n', e1, e2, rfl⟩ := impactAt_inv k q y a f h1
  obtain ⟨m, m', d1, d2, rfl⟩ := impactAt_inv k _ r b f h2
  have hl := (List.getElem?_eq_some_iff.1 e1).1
  by_cases he : a.postsynapticNeuronIndex = b.postsynapticNeuronIndex
  · rw [← he] at d1
    rw [List.getElem?_set_self hl] at d1
    cases d1
    have := hk n a b f m' ha hb (by rw [e2]; exact d2)
    obtain ⟨z, z1, z2⟩ := obindE _ _ _ this
    rw [impactAt_intro k q b f n z (he ▸ e1) z1]
    show impactAt k _ a f = _
    rw [impactAt_intro k _ a f z m' (by rw [← he, List.getElem?_set_self hl]) z2, ← he, List.set_set, List.set_set]
  · rw [List.getElem?_set_ne he] at d1
    rw [impactAt_intro k q b f m m' d1 d2]
    show impactAt k _ a f = _
    rw [impactAt_intro k _ a f n n' (by rw [List.getElem?_set_ne (fun e => he e.symm)]; exact e1) e2,
      List.set_comm _ _ (fun e => he e.symm)]

private theorem impacts_perm (k : Kind N F) (hk : Commutes k) (f : Bool) {l l' : List (SynapticImpact F)} (hp : l.Perm l') :
    (∀ i ∈ l, i.synapseType ≠ .blocking) → ∀ q r : List N, l.foldlM (fun q i => impactAt k q i f) q = .ok r →
      l'.foldlM (fun q i => impactAt k q i f) q = .ok r := by
  induction hp with
  | nil => intro _ q r h; exact h
  | cons x _ ih =>
    intro hb q r h
    rw [List.foldlM_cons] at h ⊢
    obtain ⟨y, h1, h2⟩ := obindE _ _ _ h
    rw [h1]
    exact ih (fun i hi => hb i (List.mem_cons_of_mem _ hi)) y r h2
  | swap x y l =>
    intro hb q r h
    rw [List.foldlM_cons] at h
    obtain ⟨z, h1, h2⟩ := obindE _ _ _ h
    rw [List.foldlM_cons] at h2
    obtain ⟨z', h3, h4⟩ := obindE _ _ _ h2
    have hc := impactAt_comm k hk q z' y x f (hb y (by simp)) (hb x (by simp)) (by rw [h1]; exact h3)
    obtain ⟨u, u1, u2⟩ := obindE _ _ _ hc
    rw [List.foldlM_cons, u1, Outcome.bind_ok, List.foldlM_cons, u2]
    exact h4
  | trans _ _ ih1 ih2 =>
    rename_i p1 _
    intro hb q r h
    exact ih2 (fun i hi => hb i (p1.mem_iff.2 hi)) q r (ih1 hb q r h)

private theorem population_perm (k : Kind N F) (hk : Commutes k) {ms ms' : List (SynapticImpactMessage F)}
    (hm : List.Forall₂ SameImpactMsg ms ms') : (∀ m ∈ ms, ∀ i ∈ m.impacts, i.synapseType ≠ .blocking) →
    ∀ q r : List N, impactPopulation k q ms = .ok r → impactPopulation k q ms' = .ok r := by
  induction hm with
  | nil => intro _ q r h; exact h
  | cons hx _ ih =>
    rename_i a b l l' _
    intro hb q r h
    obtain ⟨h1, h2, h3⟩ := hx
    unfold impactPopulation at h ⊢
    rw [List.foldlM_cons] at h ⊢
    obtain ⟨y, e1, e2⟩ := obindE _ _ _ h
    rw [← h2, impacts_perm k hk a.isForcing h3 (hb a (by simp)) q y e1]
    exact ih (fun m hm => hb m (List.mem_cons_of_mem _ hm)) y r e2

theorem step_perm (k : Kind N F) (hk : Commutes k) (uid : UID) (t : Nat) (pop : List N)
    {ms ms' : List (SynapticImpactMessage F)} (hm : List.Forall₂ SameImpactMsg ms ms')
    (hb : ∀ m ∈ ms, ∀ i ∈ m.impacts, i.synapseType ≠ .blocking) (r : List N × Option SpikeMessage)
    (h : stepPopulation k uid t pop ms = .ok r) : stepPopulation k uid t pop ms' = .ok r := by
  unfold stepPopulation at h ⊢
  obtain ⟨y, e1, e2⟩ := obindE _ _ _ h
  obtain ⟨z, e3, e4⟩ := obindE _ _ _ e2
  rw [e1, Outcome.bind_ok, population_perm k hk hm hb y z e3]
  exact e4

theorem sameSpikes_toList {a b : Option SpikeMessage} (h : SameSpikes a b) :
    List.Forall₂ SameSpikeMsg b.toList a.toList := by
  rcases h with ⟨rfl, rfl⟩ | ⟨x, y, rfl, rfl, h1, h2⟩
  · exact .nil
  · exact .cons ⟨h1.symm, h2.symm⟩ .nil

theorem forall₂_append {α β : Type} {R : α → β → Prop} {a c : List α} {b d : List β} (h1 : List.Forall₂ R a b)
    (h2 : List.Forall₂ R c d) : List.Forall₂ R (a ++ c) (b ++ d) := by
  induction h1 with
  | nil => exact h2
  | cons h _ ih => exact .cons h ih

theorem forall₂_filter {α β : Type} {R : α → β → Prop} (p : α → Bool) (q : β → Bool) {a : List α} {b : List β}
    (h : List.Forall₂ R a b) (hpq : ∀ x y, R x y → p x = q y) : List.Forall₂ R (a.filter p) (b.filter q) := by
  induction h with
  | nil => exact .nil
  | cons h _ ih =>
    rw [List.filter_cons, List.filter_cons, hpq _ _ h]
    split
    · exact .cons h ih
    · exact ih

theorem forall₂_self {α : Type} {R : α → α → Prop} (hR : ∀ x, R x x) (l : List α) : List.Forall₂ R l l := by
  induction l with
  | nil => exact .nil
  | cons x l ih => exact .cons (hR x) ih

private theorem pops_sim (c : Sys.Config F) (hp : 1 ≤ c.popPart) (hp2 : c.popPart < two64) (t : Nat)
    (inp inp' : UID → List (SynapticImpactMessage F)) : ∀ (ps : List (Sys.PopSt N F)) (scs : List (List Nat × List Nat))
    (ps1 : List (Sys.PopSt N F)) (ss : List SpikeMessage) (r : Outcome (List (Sys.PopSt N F) × List SpikeMessage)),
    (∀ p ∈ ps, Commutes p.kind ∧ p.neurons.length ≤ 2 ^ 63 ∧ List.Forall₂ SameImpactMsg (inp p.uid) (inp' p.uid) ∧
      ∀ m ∈ inp p.uid, ∀ i ∈ m.impacts, i.synapseType ≠ .blocking) →
    flowPops t inp ps = .ok (ps1, ss) → flowPopsM c t inp' ps scs = some r →
    ∃ ss', r = .ok (ps1, ss') ∧ List.Forall₂ SameSpikeMsg ss ss' := by
  intro ps
  induction ps with
  | nil =>
    intro scs ps1 ss r _ h1 h2
    cases scs with
    | nil => cases h1; cases h2; exact ⟨[], rfl, .nil⟩
    | cons sc scs => cases h2
  | cons p ps ih =>
    intro scs ps1 ss r hall h1 h2
    cases scs with
    | nil => cases h2
    | cons sc scs =>
      obtain ⟨hk, hsz, hto, hbl⟩ := hall p (by simp)
      rw [flowPops] at h1
      rw [flowPopsM] at h2
      cases hs : stepPopulation p.kind p.uid t p.neurons (inp p.uid) with
      | throw w => rw [hs] at h1; cases h1
      | ub => rw [hs] at h1; cases h1
      | ok x =>
        rw [hs] at h1
        simp only at h1
        have hs' := step_perm p.kind hk p.uid t p.neurons hto hbl x hs
        cases hf : flowPops t inp ps with
        | throw w => rw [hf] at h1; cases h1
        | ub => rw [hf] at h1; cases h1
        | ok y =>
          obtain ⟨ps2, ss2⟩ := y
          rw [hf] at h1
          simp only [Outcome.ok.injEq, Prod.mk.injEq] at h1
          cases hm : multiPopulation p.kind p.uid t c.popPart p.neurons (inp' p.uid) sc.1 sc.2 with
          | none => rw [hm] at h2; cases h2
          | some m =>
            have h47 := C47_schedule_independent p.kind p.uid t c.popPart p.neurons (inp' p.uid) sc.1 sc.2 m hp hp2 hsz hm
            rw [hs'] at h47
            rw [hm] at h2
            cases m with
            | throw w => simp only at h47
            | ub => simp only at h47
            | ok m =>
              simp only at h47 h2
              obtain ⟨g1, g2⟩ := h47
              cases hf' : flowPopsM c t inp' ps scs with
              | none => rw [hf'] at h2; cases h2
              | some r' =>
                obtain ⟨ss', e1, e2⟩ := ih scs ps2 ss2 r' (fun q hq => hall q (List.mem_cons_of_mem _ hq)) hf hf'
                rw [hf', e1] at h2
                simp only [Option.some.injEq] at h2
                refine ⟨m.2.toList ++ ss', ?_, ?_⟩
                · rw [← h2, ← h1.1, g1]
                · rw [← h1.2]
                  exact forall₂_append (sameSpikes_toList g2) e2

/-- Queues that will deliver the same from step `t` on. -/
private def SameProj (t : Nat) (a b : Sys.ProjSt F) : Prop :=
  a.ident = b.ident ∧ a.proj = b.proj ∧
    ∀ due, t ≤ due → SameImpacts (Delta.qFind a.queue due) (Delta.qFind b.queue due)

theorem sameImpacts_toList {a b : Option (SynapticImpactMessage F)} (h : SameImpacts a b) :
    List.Forall₂ SameImpactMsg a.toList b.toList := by
  obtain ⟨h1, h2, h3⟩ := h
  cases a with
  | none =>
    cases b with
    | none => exact .nil
    | some y => cases h2
  | some x =>
    cases b with
    | none => cases h2
    | some y =>
      simp only [Option.map_some, Option.some.injEq, Prod.mk.injEq] at h3
      exact .cons ⟨h3.1, h3.2, h1⟩ .nil

private theorem filterMap_range_get {α : Type} (l : List α) : (List.range l.length).filterMap (fun i => l[i]?) = l := by
  induction l with
  | nil => rfl
  | cons x l ih =>
    rw [List.length_cons, List.range_succ_eq_map, List.filterMap_cons, List.filterMap_map]
    simp only [List.getElem?_cons_zero, List.cons.injEq, true_and]
    exact ih

theorem reorder_perm {α : Type} (o : List Nat) (ts r : List α) (h : Sys.reorder o ts = some r) : r.Perm ts := by
  unfold Sys.reorder at h
  split at h
  · rename_i hp
    cases h
    have := hp.filterMap (fun i => ts[i]?)
    rwa [filterMap_range_get] at this
  · cases h

private theorem projs_sim (c : Sys.Config F) (hsc : ∀ w, c.scale w 1 = w) (hp : 1 ≤ c.projPart) (hp2 : c.projPart < two64)
    (t : Nat) (heard heard' : UID → List SpikeMessage) : ∀ (js js2 : List (Sys.ProjSt F)) (os : List (List Nat))
    (js' : List (Sys.ProjSt F)) (ms : List (SynapticImpactMessage F)), List.Forall₂ (SameProj t) js js2 →
    (∀ j ∈ js, OneMessage ⟨j.proj, heard j.ident.uid⟩ ∧
      List.Forall₂ SameSpikeMsg (heard j.ident.uid) (heard' j.ident.uid)) →
    flowProjsM c t heard' js2 os = some (js', ms) →
    List.Forall₂ (SameProj (t + 1)) (js.map fun j => (flowProj t j (heard j.ident.uid)).2) js' ∧
    List.Forall₂ SameImpactMsg (js.flatMap fun j => (flowProj t j (heard j.ident.uid)).1.toList) ms := by
  intro js
  induction js with
  | nil =>
    intro js2 os js' ms hr _ h
    cases hr
    cases os with
    | nil => cases h; exact ⟨.nil, .nil⟩
    | cons o os => cases h
  | cons j js ih =>
    intro js2 os js' ms hr hall h
    cases hr with
    | cons hj hjs =>
      rename_i j2 js2
      obtain ⟨i1, i2, i3⟩ := hj
      obtain ⟨ho, hh⟩ := hall j (by simp)
      cases os with
      | nil => cases h
      | cons o os =>
        rw [flowProjsM, ← i1, ← i2] at h
        cases hre : Sys.reorder o (Delta.tasks c.scale j.proj t c.projPart (heard' j.ident.uid)) with
        | none => rw [hre] at h; cases h
        | some ts =>
          rw [hre] at h
          simp only at h
          cases hf : flowProjsM c t heard' js2 os with
          | none => rw [hf] at h; cases h
          | some x =>
            obtain ⟨js3, ms3⟩ := x
            rw [hf] at h
            simp only [Option.some.injEq, Prod.mk.injEq] at h
            obtain ⟨r1, r2⟩ := ih js2 os js3 ms3 hjs (fun x hx => hall x (List.mem_cons_of_mem _ hx)) hf
            have htasks : Delta.tasks c.scale j.proj t c.projPart (heard' j.ident.uid) =
                Delta.tasks c.scale j.proj t c.projPart (heard j.ident.uid) := by
              have h1 := ho.one
              simp only at h1
              generalize heard j.ident.uid = A at hh h1
              generalize heard' j.ident.uid = B at hh
              cases hh with
              | nil => rfl
              | cons hm hrest =>
                cases hrest with
                | nil => exact (tasks_perm c.scale j.proj t c.projPart _ _ hm.2).symm
                | cons _ _ => simp at h1
            rw [htasks] at hre
            have hst := C45_step_partial c.scale hsc j.ident t c.projPart hp hp2 j.proj (heard j.ident.uid) ho ts
              (reorder_perm _ _ _ hre) j.queue j2.queue i3
            rw [← h.1, ← h.2]
            refine ⟨.cons ⟨rfl, rfl, hst.2⟩ r1, ?_⟩
            rw [List.flatMap_cons]
            exact forall₂_append (sameImpacts_toList hst.1) r2

/-- A step in which the two backends cannot differ: no blocking impacts, at most one message for every projection, and no
neuron twice in it (C45). -/
structure Benign (o : Sys.StepOut F) : Prop where
  noBlocking : ∀ g ∈ o.given, ∀ m ∈ g.2, ∀ i ∈ m.impacts, i.synapseType ≠ .blocking
  oneMessage : ∀ h ∈ o.heard, h.2.length ≤ 1
  noRepeat : ∀ h ∈ o.heard, ∀ m ∈ h.2, m.neuronIndexes.Nodup

/-- A projection the two backends compute alike. -/
structure PlainProj (p : Delta.Proj F) : Prop where
  exact : ExactFind p
  size : p.synapses.length ≤ 2 ^ 63

theorem heard_sim (f : SpikeMessage → Bool) (hf : ∀ a b, SameSpikeMsg a b → f a = f b) (ext ss ss' : List SpikeMessage)
    (h : List.Forall₂ SameSpikeMsg ss ss') (hl : ((ext ++ ss).filter f).length ≤ 1) :
    List.Forall₂ SameSpikeMsg ((ext ++ ss).filter f) ((ss' ++ ext).filter f) := by
  have hff := forall₂_filter f f h hf
  rw [List.filter_append] at hl ⊢
  rw [List.filter_append]
  have hlen := hff.length_eq
  rw [List.length_append] at hl
  have hrefl : ∀ x : SpikeMessage, SameSpikeMsg x x := fun x => ⟨rfl, List.Perm.refl _⟩
  by_cases h0 : (ss.filter f).length = 0
  · rw [List.length_eq_zero_iff.1 h0, List.length_eq_zero_iff.1 (hlen.symm.trans h0), List.append_nil, List.nil_append]
    exact forall₂_self hrefl _
  · have h1 : (ext.filter f).length = 0 := by omega
    rw [List.length_eq_zero_iff.1 h1, List.append_nil, List.nil_append]
    exact hff

theorem forall₂_map₂ {α β γ : Type} {R : β → γ → Prop} (f : α → β) (g : α → γ) (l : List α)
    (h : ∀ x ∈ l, R (f x) (g x)) : List.Forall₂ R (l.map f) (l.map g) := by
  induction l with
  | nil => exact .nil
  | cons x l ih => exact .cons (h x (by simp)) (ih (fun y hy => h y (by simp [hy])))

private theorem flowPops_keep (t : Nat) (inp : UID → List (SynapticImpactMessage F)) : ∀ (ps ps' : List (Sys.PopSt N F))
    (ss : List SpikeMessage), (∀ p ∈ ps, Commutes p.kind ∧ p.neurons.length ≤ 2 ^ 63) → flowPops t inp ps = .ok (ps', ss) →
    ∀ p ∈ ps', Commutes p.kind ∧ p.neurons.length ≤ 2 ^ 63 := by
  intro ps
  induction ps with
  | nil => intro ps' ss _ h; cases h; intro p hp; simp at hp
  | cons p ps ih =>
    intro ps' ss hall h
    rw [flowPops] at h
    cases hs : stepPopulation p.kind p.uid t p.neurons (inp p.uid) with
    | throw w => rw [hs] at h; cases h
    | ub => rw [hs] at h; cases h
    | ok x =>
      rw [hs] at h
      simp only at h
      cases hf : flowPops t inp ps with
      | throw w => rw [hf] at h; cases h
      | ub => rw [hf] at h; cases h
      | ok y =>
        obtain ⟨ps2, ss2⟩ := y
        rw [hf] at h
        simp only [Outcome.ok.injEq, Prod.mk.injEq] at h
        obtain ⟨hk, hl⟩ := hall p (by simp)
        have hlen := (C55_each_neuron p.kind p.uid t p.neurons x.1 (inp p.uid) x.2 hs).1
        rw [← h.1]
        intro q hq
        rcases List.mem_cons.1 hq with rfl | hq
        · exact ⟨hk, by simp only; omega⟩
        · exact ih ps2 ss2 (fun r hr => hall r (List.mem_cons_of_mem _ hr)) hf q hq

private theorem step_sim (c : Sys.Config F) (hsc : ∀ w, c.scale w 1 = w) (hc : 1 ≤ c.popPart ∧ c.popPart < two64)
    (hc' : 1 ≤ c.projPart ∧ c.projPart < two64) (H : Hearing) (t : Nat) (pops : List (Sys.PopSt N F))
    (projs projs2 : List (Sys.ProjSt F)) (pend pend2 : List (SynapticImpactMessage F)) (ext : List (Message F))
    (sc : Sys.Sched) (hext : Sys.impactsIn ext = []) (hpops : ∀ p ∈ pops, Commutes p.kind ∧ p.neurons.length ≤ 2 ^ 63)
    (hprojs : ∀ j ∈ projs, PlainProj j.proj) (hr : List.Forall₂ (SameProj t) projs projs2)
    (hp : List.Forall₂ SameImpactMsg pend pend2) (st : List (Sys.PopSt N F) × List (Sys.ProjSt F)) (o : Sys.StepOut F)
    (h1 : flowStep H t pops projs pend ext = .ok (st, o)) (hb : Benign o)
    (r : Outcome ((List (Sys.PopSt N F) × List (Sys.ProjSt F)) × Sys.StepOut F))
    (h2 : flowStepM c H t pops projs2 pend2 ext sc = some r) :
    ∃ projs3 o', r = .ok ((st.1, projs3), o') ∧ List.Forall₂ (SameProj (t + 1)) st.2 projs3 ∧ SameStep o o' ∧
      (∀ p ∈ st.1, Commutes p.kind ∧ p.neurons.length ≤ 2 ^ 63) ∧ ∀ j ∈ st.2, PlainProj j.proj := by
  unfold flowStep at h1
  unfold flowStepM at h2
  simp only [hext, List.append_nil] at h1 h2
  generalize hG : (fun r => pend.filter (fun m => H.impact r m.header.senderUid)) = G at h1
  generalize hG2 : (fun r => pend2.filter (fun m => H.impact r m.header.senderUid)) = G2 at h2
  have hGG : ∀ u, List.Forall₂ SameImpactMsg (G u) (G2 u) := by
    intro u
    rw [← hG, ← hG2]
    exact forall₂_filter _ _ hp (fun x y hxy => by rw [hxy.1])
  cases hfp : flowPops t G pops with
  | throw w => rw [hfp] at h1; cases h1
  | ub => rw [hfp] at h1; cases h1
  | ok y =>
    obtain ⟨ps1, ss⟩ := y
    rw [hfp] at h1
    simp only [Outcome.ok.injEq, Prod.mk.injEq] at h1
    obtain ⟨e1, e2⟩ := h1
    cases hfm : flowPopsM c t G2 pops sc.pops with
    | none => rw [hfm] at h2; cases h2
    | some r' =>
      have hgiven : o.given = pops.map (fun p => (p.uid, G p.uid)) := by rw [← e2, ← hG]
      obtain ⟨ss', f1, f2⟩ := pops_sim c hc.1 hc.2 t G G2 pops sc.pops ps1 ss r' (by
        intro p hp
        obtain ⟨a, b⟩ := hpops p hp
        refine ⟨a, b, hGG _, ?_⟩
        exact hb.noBlocking (p.uid, G p.uid) (by rw [hgiven]; exact List.mem_map.2 ⟨p, hp, rfl⟩)) hfp hfm
      rw [hfm, f1] at h2
      simp only at h2
      generalize hA : (fun r => (Sys.spikesIn ext ++ ss).filter (fun m => H.spike r m.header.senderUid)) = A at e1 e2
      generalize hA2 : (fun r => (ss' ++ Sys.spikesIn ext).filter (fun m => H.spike r m.header.senderUid)) = A2 at h2
      have e1' : st = (ps1, projs.map (fun j => (flowProj t j (A j.ident.uid)).2)) := by rw [← e1, ← hA]
      have hheard : o.heard = projs.map (fun j => (j.ident.uid, A j.ident.uid)) := by rw [← e2, ← hA]
      have himp : o.impacts = projs.flatMap (fun j => (flowProj t j (A j.ident.uid)).1.toList) := by rw [← e2, ← hA]
      have hspk : o.spikes = ss := by rw [← e2]
      have hAA : ∀ j ∈ projs, OneMessage ⟨j.proj, A j.ident.uid⟩ ∧ List.Forall₂ SameSpikeMsg (A j.ident.uid) (A2 j.ident.uid) := by
        intro j hj
        have hm : (j.ident.uid, A j.ident.uid) ∈ o.heard := by rw [hheard]; exact List.mem_map.2 ⟨j, hj, rfl⟩
        have hone := hb.oneMessage _ hm
        have hnd := hb.noRepeat _ hm
        refine ⟨⟨(hprojs j hj).exact, (hprojs j hj).size, hone, hnd⟩, ?_⟩
        rw [← hA] at hone ⊢
        rw [← hA2]
        exact heard_sim _ (fun a b hab => by rw [hab.1]) _ _ _ f2 hone
      have hids : projs2.map (fun j => j.ident.uid) = projs.map (fun j => j.ident.uid) := by
        clear hAA hheard himp e1' e1 e2 h2 hprojs
        induction hr with
        | nil => rfl
        | cons h _ ih => rw [List.map_cons, List.map_cons, ih, h.1]
      cases hfj : flowProjsM c t A2 projs2 sc.projs with
      | none => rw [hfj] at h2; cases h2
      | some z =>
        obtain ⟨projs3, ms⟩ := z
        rw [hfj] at h2
        simp only [Option.some.injEq] at h2
        obtain ⟨g1, g2⟩ := projs_sim c hsc hc'.1 hc'.2 t A A2 projs projs2 sc.projs projs3 ms hr hAA hfj
        refine ⟨projs3, ⟨pops.map (fun p => (p.uid, G2 p.uid)), ss', projs2.map (fun j => (j.ident.uid, A2 j.ident.uid)), ms⟩,
          ?_, ?_, ⟨?_, ?_, ?_, ?_⟩, ?_, ?_⟩
        · rw [← h2, e1', ← hA2, ← hG2]
        · rw [e1']; exact g1
        · rw [hgiven]
          exact forall₂_map₂ _ _ _ (fun p _ => ⟨rfl, hGG _⟩)
        · rw [hspk]; exact f2
        · rw [hheard]
          have e : projs2.map (fun j => (j.ident.uid, A2 j.ident.uid)) = projs.map (fun j => (j.ident.uid, A2 j.ident.uid)) := by
            have := congrArg (List.map (fun u => (u, A2 u))) hids
            rw [List.map_map, List.map_map] at this
            exact this
          rw [e]
          exact forall₂_map₂ _ _ _ (fun j hj => ⟨rfl, (hAA j hj).2⟩)
        · rw [himp]; exact g2
        · rw [e1']; exact flowPops_keep t G pops ps1 ss hpops hfp
        · rw [e1']
          intro j hj
          obtain ⟨j', hj', rfl⟩ := List.mem_map.1 hj
          exact hprojs j' hj'

private theorem run_sim (c : Sys.Config F) (hsc : ∀ w, c.scale w 1 = w) (hc : 1 ≤ c.popPart ∧ c.popPart < two64)
    (hc' : 1 ≤ c.projPart ∧ c.projPart < two64) (H : Hearing) : ∀ (exts : List (List (Message F) × Sys.Sched)) (t : Nat)
    (pops : List (Sys.PopSt N F)) (projs projs2 : List (Sys.ProjSt F)) (pend pend2 : List (SynapticImpactMessage F))
    (st : List (Sys.PopSt N F) × List (Sys.ProjSt F)) (os : List (Sys.StepOut F))
    (r : Outcome ((List (Sys.PopSt N F) × List (Sys.ProjSt F)) × List (Sys.StepOut F))),
    (∀ e ∈ exts, Sys.impactsIn e.1 = []) → (∀ p ∈ pops, Commutes p.kind ∧ p.neurons.length ≤ 2 ^ 63) →
    (∀ j ∈ projs, PlainProj j.proj) → List.Forall₂ (SameProj t) projs projs2 → List.Forall₂ SameImpactMsg pend pend2 →
    flowRun H t pops projs pend (exts.map (·.1)) = .ok (st, os) → (∀ o ∈ os, Benign o) →
    flowRunM c H t pops projs2 pend2 exts = some r →
    ∃ projs3 os', r = .ok ((st.1, projs3), os') ∧ List.Forall₂ SameStep os os' := by
  intro exts
  induction exts with
  | nil =>
    intro t pops projs projs2 pend pend2 st os r _ _ _ _ _ h1 _ h2
    cases h1
    cases h2
    exact ⟨projs2, [], rfl, .nil⟩
  | cons e exts ih =>
    intro t pops projs projs2 pend pend2 st os r hext hpops hprojs hr hp h1 hb h2
    rw [List.map_cons, flowRun] at h1
    rw [flowRunM] at h2
    cases hs : flowStep H t pops projs pend e.1 with
    | throw w => rw [hs] at h1; cases h1
    | ub => rw [hs] at h1; cases h1
    | ok x =>
      obtain ⟨st1, o⟩ := x
      rw [hs] at h1
      simp only at h1
      cases hf : flowRun H (t + 1) st1.1 st1.2 o.impacts (exts.map (·.1)) with
      | throw w => rw [hf] at h1; cases h1
      | ub => rw [hf] at h1; cases h1
      | ok y =>
        obtain ⟨st2, os2⟩ := y
        rw [hf] at h1
        simp only [Outcome.ok.injEq, Prod.mk.injEq] at h1
        obtain ⟨rfl, rfl⟩ := h1
        cases hm : flowStepM c H t pops projs2 pend2 e.1 e.2 with
        | none => rw [hm] at h2; cases h2
        | some r1 =>
          obtain ⟨projs3, o', q1, q2, q3, q4, q5⟩ := step_sim c hsc hc hc' H t pops projs projs2 pend pend2 e.1 e.2
            (hext e (by simp)) hpops hprojs hr hp st1 o hs (hb o (by simp)) r1 hm
          rw [hm, q1, hext e (by simp)] at h2
          simp only [List.nil_append] at h2
          cases hfm : flowRunM c H (t + 1) st1.1 projs3 o'.impacts exts with
          | none => rw [hfm] at h2; cases h2
          | some r2 =>
            obtain ⟨projs4, os4, w1, w2⟩ := ih (t + 1) st1.1 st1.2 projs3 o.impacts o'.impacts st2 os2 r2
              (fun x hx => hext x (List.mem_cons_of_mem _ hx)) q4 q5 q2 q3.impacts hf
              (fun x hx => hb x (List.mem_cons_of_mem _ hx)) hfm
            rw [hfm, w1] at h2
            simp only [Option.some.injEq] at h2
            exact ⟨projs4, o' :: os4, h2.symm, .cons q3 w2⟩

theorem impactsIn_ext (chans : Nat) (env : Sys.Env F) (h : ∀ e m, Bus.Op.send e (.impact m) ∉ env) :
    Sys.impactsIn (extOf chans env) = [] := by
  rw [List.eq_nil_iff_forall_not_mem]
  intro m hm
  unfold Sys.impactsIn at hm
  obtain ⟨m', hm', he⟩ := List.mem_filterMap.1 hm
  cases m' with
  | spike x => simp at he
  | impact x =>
    unfold extOf sentVia at hm'
    obtain ⟨e, _, h2⟩ := List.mem_flatMap.1 hm'
    obtain ⟨op, hop, h3⟩ := List.mem_filterMap.1 h2
    cases op with
    | send e' m'' =>
      simp only at h3
      split at h3
      · simp only [Option.some.injEq] at h3
        subst h3
        exact h e' x hop
      · simp at h3
    | _ => simp at h3

/-- C107. A network that runs normally on the single-threaded backend runs the same on the multi-threaded one, whatever
the schedules of the threads and the sizes of the parts: after every step the same neuron states, the same spikes, the same
impacts, in every step, up to the order inside a message.  For runs of any length whose steps are benign, neurons for which the order of
impacts does not matter, and a rest of the program that sends spikes only. -/
theorem C107_backends_agree_partial (c : Sys.Config F) (hsc : ∀ w, c.scale w 1 = w) (hc : 1 ≤ c.popPart ∧ c.popPart < two64)
    (hc' : 1 ≤ c.projPart ∧ c.projPart < two64) (pops : List (Sys.PopSt N F)) (projs : List (Delta.Ident × Delta.Proj F))
    (inputs : List (UID × UID)) (chans : Nat) (hnp : (pops.map (·.uid)).Nodup) (hnj : (projs.map (·.1.uid)).Nodup)
    (hpops : ∀ p ∈ pops, Commutes p.kind ∧ p.neurons.length ≤ 2 ^ 63) (hprojs : ∀ j ∈ projs, PlainProj j.2)
    (envs : List (Sys.Env F × Sys.Sched)) (hf : ∀ env ∈ envs, ∀ op ∈ env.1, Foreign chans op)
    (hext : ∀ env ∈ envs, ∀ e m, Bus.Op.send e (.impact m) ∉ env.1) (s : Sys.State N F) (os : List (Sys.StepOut F))
    (h1 : Sys.runSingle (Sys.boot pops projs inputs chans) (envs.map (·.1)) = .ok (s, os)) (hb : ∀ o ∈ os, Benign o)
    (r : Outcome (Sys.State N F × List (Sys.StepOut F)))
    (h2 : Sys.runMulti c (Sys.boot pops projs inputs chans) envs = some r) :
    ∃ s' os', r = .ok (s', os') ∧ s'.pops = s.pops ∧ List.Forall₂ SameStep os os' := by
  have g1 := C104_dataflow pops projs inputs chans hnp hnj (envs.map (·.1)) (by
    intro env he
    obtain ⟨x, hx, rfl⟩ := List.mem_map.1 he
    exact hf x hx)
  have g2 := C106_dataflow c pops projs inputs chans hnp hnj envs hf
  rw [h1] at g1
  rw [h2] at g2
  simp only [visible] at g1
  have e : (envs.map (·.1)).map (extOf chans) = (envs.map fun e => (extOf chans e.1, e.2)).map (·.1) := by
    rw [List.map_map, List.map_map]; rfl
  rw [e] at g1
  simp only [visibleM, Option.map_some] at g2
  have hself : ∀ (l : List (Delta.Ident × Delta.Proj F)), List.Forall₂ (SameProj 0)
      (l.map fun j => (⟨j.1, j.2, []⟩ : Sys.ProjSt F)) (l.map fun j => ⟨j.1, j.2, []⟩) :=
    fun l => forall₂_map₂ _ _ _ (fun j _ => ⟨rfl, rfl, fun _ _ => ⟨List.Perm.refl _, rfl, rfl⟩⟩)
  obtain ⟨projs3, os', w1, w2⟩ := run_sim c hsc hc hc' (hearingOf projs inputs) _ 0 pops _ _ [] [] _ os _ (by
      intro x hx
      obtain ⟨y, hy, rfl⟩ := List.mem_map.1 hx
      exact impactsIn_ext chans y.1 (hext y hy)) hpops (by
      intro j hj
      obtain ⟨y, hy, rfl⟩ := List.mem_map.1 hj
      exact hprojs y hy) (hself projs) .nil g1.symm hb g2.symm
  cases r with
  | throw w => simp only [visible] at w1; cases w1
  | ub => simp only [visible] at w1; cases w1
  | ok x =>
    simp only [visible, Outcome.ok.injEq, Prod.mk.injEq] at w1
    exact ⟨x.1, x.2, rfl, w1.1.1, by rw [w1.2]; exact w2⟩

/-! The network of C104 with schedules: two LIF populations, parts of one. -/

private def mNeuron : Lif Int := ⟨0, 0, 5, 1, 0, 1⟩
private def mPops : List (Sys.PopSt (Lif Int) Int) := [⟨1, lif, [mNeuron, mNeuron]⟩, ⟨2, lif, [mNeuron]⟩]
private def mProjs : List (Delta.Ident × Delta.Proj Int) :=
  [(⟨10, 0, 1, false⟩, ⟨[⟨0, 0, 9, 1, .excitatory⟩, ⟨1, 1, 9, 1, .excitatory⟩],
      fun n => if n = 0 then [0] else if n = 1 then [1] else []⟩),
   (⟨20, 1, 2, false⟩, ⟨[⟨0, 0, 3, 1, .excitatory⟩, ⟨1, 0, 3, 1, .excitatory⟩],
      fun n => if n = 0 then [0] else if n = 1 then [1] else []⟩)]
private def mConfig : Sys.Config Int := ⟨1, 1, fun w n => w * n⟩
/-- Which tasks are posted depends on whether there is a message. -/
private def mSched (a b : Bool) : Sys.Sched :=
  ⟨[([1, 1, 0, 0], [1, 1, 0, 0]), ([0, 0], [0, 0])], [if a then [1, 0] else [], if b then [1, 0] else []]⟩
private def mEnvs : List (Sys.Env Int × Sys.Sched) :=
  [([.send 1 (.spike ⟨⟨50, 0⟩, [0, 1]⟩)], mSched true false), ([], mSched false true), ([], mSched false false)]
private def mSingle := Sys.runSingle (Sys.boot mPops mProjs [(10, 50)] 1) (mEnvs.map (·.1))
private def mMulti := Sys.runMulti mConfig (Sys.boot mPops mProjs [(10, 50)] 1) mEnvs

private def mOuts : Outcome (Sys.State (Lif Int) Int × List (Sys.StepOut Int)) → List (Sys.StepOut Int)
  | .ok r => r.2
  | _ => []

example : mSingle.isOk = true ∧ mMulti.isSome = true := by decide +kernel
/-- Another order in the messages, the same network. -/
example : (mOuts mSingle).map (fun o => o.spikes.map (·.neuronIndexes)) = [[], [[0, 1]], [[0]]] ∧
    (mOuts (mMulti.getD .ub)).map (fun o => o.spikes.map (·.neuronIndexes)) = [[], [[1, 0]], [[0]]] := by decide +kernel
example : ∀ o ∈ mOuts mSingle, Benign o := by
  have h : (mOuts mSingle).all (fun o => o.given.all (fun g => g.2.all (fun m => m.impacts.all (fun i => decide (i.synapseType ≠ .blocking)))) &&
      o.heard.all (fun h => decide (h.2.length ≤ 1)) && o.heard.all (fun h => h.2.all (fun m => decide m.neuronIndexes.Nodup))) = true := by
    decide +kernel
  simp only [List.all_eq_true, Bool.and_eq_true, decide_eq_true_eq] at h
  exact fun o ho => ⟨(h o ho).1.1, (h o ho).1.2, (h o ho).2⟩
example : Unrounded Int := ⟨fun a b c => by omega, fun a b c => by omega, fun a b c => by omega⟩
example : ∀ p ∈ mPops, Commutes p.kind ∧ p.neurons.length ≤ 2 ^ 63 := by
  intro p hp
  have hu : Unrounded Int := ⟨fun a b c => by omega, fun a b c => by omega, fun a b c => by omega⟩
  simp only [mPops, List.mem_cons, List.not_mem_nil, or_false] at hp
  rcases hp with rfl | rfl <;> exact ⟨(C107_kinds_commute hu).1, by decide⟩
example : ∀ env ∈ mEnvs, (∀ op ∈ env.1, Foreign 1 op) ∧ ∀ e m, Bus.Op.send e (.impact m) ∉ env.1 := by
  simp [mEnvs, Foreign]

example : ∀ j ∈ mProjs, PlainProj j.2 := by
  intro j hj
  simp only [mProjs, List.mem_cons, List.not_mem_nil, or_false] at hj
  rcases hj with rfl | rfl
  all_goals
    refine ⟨fun n => ⟨?_, fun k => ?_⟩, by decide⟩
    · by_cases h : n = 0 <;> by_cases h1 : n = 1 <;> simp [h, h1]
    · rcases k with _ | _ | k <;>
      by_cases h : n = 0 <;> by_cases h1 : n = 1 <;> simp [h, h1] <;> omega
example (w : Int) : mConfig.scale w 1 = w := by simp [mConfig]

/-- The unrestricted claim: whatever runs normally on one backend runs the same on the other. -/
def C107_statement : Prop :=
  ∀ (c : Sys.Config Int), (∀ w, c.scale w 1 = w) → (1 ≤ c.popPart ∧ c.popPart < two64) → (1 ≤ c.projPart ∧ c.projPart < two64) →
    ∀ (pops : List (Sys.PopSt (Lif Int) Int)) (projs : List (Delta.Ident × Delta.Proj Int)) (inputs : List (UID × UID))
      (chans : Nat), (pops.map (·.uid)).Nodup → (projs.map (·.1.uid)).Nodup →
    ∀ (envs : List (Sys.Env Int × Sys.Sched)), (∀ env ∈ envs, ∀ op ∈ env.1, Foreign chans op) →
    ∀ (s : Sys.State (Lif Int) Int) (os : List (Sys.StepOut Int)) (s' : Sys.State (Lif Int) Int) (os' : List (Sys.StepOut Int)),
      Sys.runSingle (Sys.boot pops projs inputs chans) (envs.map (·.1)) = .ok (s, os) →
      Sys.runMulti c (Sys.boot pops projs inputs chans) envs = some (.ok (s', os')) →
      List.Forall₂ SameSpikeMsg (os.flatMap (·.spikes)) (os'.flatMap (·.spikes))

private def xEnvs : List (Sys.Env Int × Sys.Sched) :=
  [([.send 1 (.spike ⟨⟨50, 0⟩, [0]⟩), .send 1 (.spike ⟨⟨51, 0⟩, [1]⟩)], mSched true false), ([], mSched false true)]
private def xSingle := Sys.runSingle (Sys.boot mPops mProjs [(10, 50), (10, 51)] 1) (xEnvs.map (·.1))
private def xMulti := Sys.runMulti mConfig (Sys.boot mPops mProjs [(10, 50), (10, 51)] 1) xEnvs

/-- C107, unrestricted, is false: a projection with two input channels loses one of their messages on the multi-threaded
backend, and a neuron that fires on the other backend stays silent. -/
theorem C107_refuted : ¬ C107_statement := by
  intro h
  have e1 : (mOuts xSingle).flatMap (fun o => o.spikes.map (·.neuronIndexes)) = [[0, 1]] := by decide +kernel
  have e2 : (mOuts (xMulti.getD .ub)).flatMap (fun o => o.spikes.map (·.neuronIndexes)) = [[0]] := by decide +kernel
  have o1 : xSingle.isOk = true := by decide +kernel
  have o2 : (xMulti.getD .ub).isOk = true := by decide +kernel
  cases hx : xSingle with
  | throw w => rw [hx] at o1; cases o1
  | ub => rw [hx] at o1; cases o1
  | ok a =>
    cases hy : xMulti with
    | none => rw [hy] at o2; cases o2
    | some b =>
      rw [hy] at o2
      simp only [Option.getD_some] at o2
      cases b with
      | throw w => cases o2
      | ub => cases o2
      | ok b =>
        have := h mConfig (by intro w; simp [mConfig]) (by decide) (by decide) mPops mProjs [(10, 50), (10, 51)] 1
          (by decide) (by decide) xEnvs (by simp [xEnvs, Foreign]) a.1 a.2 b.1 b.2 hx hy
        rw [hx] at e1
        rw [hy] at e2
        simp only [mOuts, Option.getD_some] at e1 e2
        have l1 : ∀ l : List (Sys.StepOut Int), l.flatMap (fun o => o.spikes.map (·.neuronIndexes)) =
            (l.flatMap (·.spikes)).map (·.neuronIndexes) := by
          intro l
          rw [List.map_flatMap]
        rw [l1] at e1 e2
        generalize a.2.flatMap (·.spikes) = A at this e1
        generalize b.2.flatMap (·.spikes) = B at this e2
        cases this with
        | nil => simp at e1
        | cons hh _ =>
          simp only [List.map_cons, List.cons.injEq] at e1 e2
          have := hh.2.length_eq
          rw [e1.1, e2.1] at this
          simp at this

end Knp.Props
