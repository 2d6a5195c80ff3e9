import Verif.Model.BackendLoad
import Verif.Lemmas.Bus

/-!
# C63, C64, C78, C92, C93: contents and wiring of the CPU backends
-/

namespace Knp.Props
open Knp Knp.Load

variable {P J Q α F : Type}

/-! ## C63 -/

private theorem loadFrom_ok (ok : α → Bool) (l : List α) : (∀ x ∈ l, ok x = true) → loadFrom ok l = (l, .ok ()) := by
  induction l with
  | nil => intro _; rfl
  | cons x l ih =>
    intro h
    rw [loadFrom, if_pos (h x (by simp)), ih (fun y hy => h y (by simp [hy]))]

private theorem loadFrom_bad (ok : α → Bool) (l : List α) : (∃ x ∈ l, ok x = false) →
    loadFrom ok l = (l.takeWhile ok, .throw "Type is not supported.") := by
  induction l with
  | nil => rintro ⟨x, hx, _⟩; cases hx
  | cons x l ih =>
    rintro ⟨y, hy, hbad⟩
    rw [loadFrom, List.takeWhile_cons]
    by_cases hx : ok x = true
    · rw [if_pos hx, if_pos hx]
      have : ∃ z ∈ l, ok z = false := by
        rcases List.mem_cons.1 hy with rfl | hy
        · rw [hx] at hbad; cases hbad
        · exact ⟨y, hy, hbad⟩
      rw [ih this]
    · rw [if_neg hx, if_neg hx]

/-- C63, loading populations: if every type is supported the backend holds exactly the given populations in order;
otherwise the call throws. The projections are untouched. -/
theorem C63_load_populations (b : Backend P J Q) (l : List (PopEntity P)) :
    ((∀ p ∈ l, b.okPop p.kind = true) →
      (loadPopulations b l).1 = { b with pops := l } ∧ (loadPopulations b l).2 = .ok ()) ∧
    ((∃ p ∈ l, b.okPop p.kind = false) → (loadPopulations b l).2 = .throw "Type is not supported.") := by
  constructor
  · intro h
    unfold loadPopulations
    rw [loadFrom_ok _ l h]
    exact ⟨rfl, rfl⟩
  · intro h
    unfold loadPopulations
    rw [loadFrom_bad _ l h]

/-- C63, loading projections: likewise; the queues of undelivered impacts start empty. -/
theorem C63_load_projections (b : Backend P J Q) (l : List (ProjEntity J)) :
    ((∀ p ∈ l, b.okProj p.kind = true) →
      (loadProjections b l).1 = { b with projs := l.map (fun p => (p, [])) } ∧ (loadProjections b l).2 = .ok ()) ∧
    ((∃ p ∈ l, b.okProj p.kind = false) → (loadProjections b l).2 = .throw "Type is not supported.") := by
  constructor
  · intro h
    unfold loadProjections
    rw [loadFrom_ok _ l h]
    exact ⟨rfl, rfl⟩
  · intro h
    unfold loadProjections
    rw [loadFrom_bad _ l h]

/-- C63, "all or nothing" is false: a call that throws has already thrown away the old populations and loaded the ones
before the unsupported one (exact content). -/
theorem C63_throw_leaves_prefix (b : Backend P J Q) (l : List (PopEntity P)) (h : ∃ p ∈ l, b.okPop p.kind = false) :
    (loadPopulations b l).1.pops = l.takeWhile (fun p => b.okPop p.kind) := by
  unfold loadPopulations
  rw [loadFrom_bad _ l h]

/-- Witness: a backend with one population is asked to load a supported and an unsupported one; it throws and is left
with the new supported one only. -/
theorem C63_all_or_nothing_refuted : ∃ (b : Backend Nat Nat Nat) (l : List (PopEntity Nat)),
    (loadPopulations b l).2 = .throw "Type is not supported." ∧ (loadPopulations b l).1.pops ≠ b.pops :=
  ⟨⟨fun k => k == 0, fun _ => true, [⟨1, 0, 0⟩], []⟩, [⟨2, 0, 0⟩, ⟨3, 2, 0⟩], rfl, by decide⟩

example : (let b : Backend Nat Nat Nat := ⟨fun k => k == 0, fun _ => true, [], []⟩
    (∀ p ∈ [(⟨2, 0, 0⟩ : PopEntity Nat), ⟨3, 0, 0⟩], b.okPop p.kind = true) ∧
    (∃ p ∈ [(⟨2, 0, 0⟩ : PopEntity Nat), ⟨3, 2, 0⟩], b.okPop p.kind = false)) := by
  refine ⟨by decide, ⟨3, 2, 0⟩, by simp, rfl⟩

/-- C63, the lists of supported names: right for the single-threaded backend. -/
theorem C63_single_names :
    supportedNames allNeurons singleNeurons = singleNeurons ∧ supportedNames allSynapses singleSynapses = singleSynapses := by
  constructor <;> decide

private theorem idxOf_prefix (sup rest : List String) (hn : (sup ++ rest).Nodup) :
    ((sup ++ rest).map (fun t => sup.idxOf t)).filter (fun i => i != sup.length) = List.range sup.length := by
  rw [List.map_append, List.filter_append]
  have h2 : (rest.map (fun t => sup.idxOf t)).filter (fun i => i != sup.length) = [] := by
    rw [List.filter_eq_nil_iff]
    intro i hi
    obtain ⟨t, ht, rfl⟩ := List.mem_map.1 hi
    have hnot : t ∉ sup := by
      intro hs
      exact (List.nodup_append.1 hn).2.2 t hs t ht rfl
    rw [List.idxOf_eq_length hnot]
    simp
  have h1 : sup.map (fun t => sup.idxOf t) = List.range sup.length := by
    apply List.ext_getElem
    · simp
    · intro i hi _
      simp only [List.getElem_map, List.getElem_range]
      have hlt : i < sup.length := by simpa using hi
      exact List.Nodup.idxOf_getElem (List.nodup_append.1 hn).1 i hlt
  rw [h1, h2, List.append_nil, List.filter_eq_self]
  intro i hi
  have := List.mem_range.1 hi
  simp
  omega

/-- C63, when the reported names are right: if the supported types are a leading part of the list of all types, in the
same order. -/
theorem C63_names_prefix_partial (sup rest : List String) (hn : (sup ++ rest).Nodup) :
    supportedNames (sup ++ rest) sup = sup := by
  unfold supportedNames supportedIndexes
  rw [idxOf_prefix sup rest hn]
  apply List.ext_getElem
  · simp
  · intro i hi hi2
    simp [List.getD_eq_getElem?_getD, List.getElem?_append_left hi2, hi2]

example : (["DeltaSynapse"] ++ ["AdditiveSTDPDeltaSynapse", "SynapticResourceSTDPDeltaSynapse"]).Nodup := by decide

/-- C63 is false for the multi-threaded backend: it reports `AltAILIF` and `AdditiveSTDPDeltaSynapse`, which it does
not support, and leaves out `LIFNeuron` and `SynapticResourceSTDPDeltaSynapse`, which it does. -/
theorem C63_multi_names_refuted :
    supportedNames allNeurons multiNeurons = ["BLIFATNeuron", "SynapticResourceSTDPBLIFATNeuron", "AltAILIF"] ∧
    supportedNames allSynapses multiSynapses = ["DeltaSynapse", "AdditiveSTDPDeltaSynapse"] ∧
    "AltAILIF" ∉ multiNeurons ∧ "LIFNeuron" ∈ multiNeurons ∧ "AdditiveSTDPDeltaSynapse" ∉ multiSynapses ∧
    "SynapticResourceSTDPDeltaSynapse" ∈ multiSynapses := by
  refine ⟨?_, ?_, ?_, ?_, ?_, ?_⟩ <;> decide

/-! ## C64 -/

/-- C64 is false: removing does nothing at all, on any backend, for any UIDs. -/
theorem C64_remove_is_noop (b : Backend P J Q) (us : List UID) :
    removePopulations b us = b ∧ removeProjections b us = b := ⟨rfl, rfl⟩

/-- Witness against C64: the population is still there. -/
theorem C64_refuted : ∃ (b : Backend Nat Nat Nat) (u : UID), ∃ p ∈ (removePopulations b [u]).pops, p.uid = u :=
  ⟨⟨fun _ => true, fun _ => true, [⟨7, 0, 0⟩], []⟩, 7, ⟨7, 0, 0⟩, by simp [removePopulations], rfl⟩

/-! ## C78 -/

private theorem foldlM_pops (l : List (PopEntity P)) (n : Network P J) :
    l.foldlM (fun n p => Network.addPopulationVariant n p) n = .ok { n with populations := n.populations ++ l } := by
  induction l generalizing n with
  | nil => simp [List.foldlM]
  | cons p l ih =>
    rw [List.foldlM_cons, Network.addPopulationVariant, Outcome.bind_ok, ih]
    simp

private theorem foldlM_projs (l : List (ProjEntity J)) (n : Network P J) :
    l.foldlM (fun n p => Network.addProjectionVariant n p) n = .ok { n with projections := n.projections ++ l } := by
  induction l generalizing n with
  | nil => simp [List.foldlM]
  | cons p l ih =>
    rw [List.foldlM_cons, Network.addProjectionVariant, Outcome.bind_ok, ih]
    simp

/-- C78. The snapshot holds exactly the populations and projections of the backend, in order. -/
theorem C78_snapshot (b : Backend P J Q) :
    networkCopy b = .ok ⟨b.pops, b.projs.map (fun w => w.1)⟩ := by
  unfold networkCopy networkData
  dsimp only
  rw [foldlM_pops, Outcome.bind_ok, foldlM_projs]
  simp

/-- C78. Loading a network of supported types into any backend and taking a snapshot gives the network back. -/
theorem C78_load_then_copy (b : Backend P J Q) (n : Network P J) (h1 : ∀ p ∈ n.populations, b.okPop p.kind = true)
    (h2 : ∀ p ∈ n.projections, b.okProj p.kind = true) :
    networkCopy (loadProjections (loadPopulations b n.populations).1 n.projections).1 = .ok n := by
  rw [((C63_load_populations b n.populations).1 h1).1]
  rw [((C63_load_projections { b with pops := n.populations } n.projections).1 h2).1]
  rw [C78_snapshot]
  simp [Function.comp_def]

example : networkCopy (loadProjections (loadPopulations (⟨fun k => k == 0, fun k => k == 0, [⟨9, 0, 1⟩], []⟩ :
    Backend Nat Nat Nat) [⟨1, 0, 5⟩, ⟨2, 0, 6⟩]).1 [⟨3, 1, 2, 0, 7⟩]).1 =
    .ok ⟨[⟨1, 0, 5⟩, ⟨2, 0, 6⟩], [⟨3, 1, 2, 0, 7⟩]⟩ := rfl

/-! ## C92: wiring -/

/-- Receiver `r` listens to messages of kind `k` from sender `s`. -/
def Listens (e : Bus.Endpoint F) (k : MsgKind) (r s : UID) : Prop :=
  ∃ sub, e.findSub k r = some sub ∧ s ∈ sub.senders

private theorem mem_setInsertAll (s xs : List UID) (u : UID) : u ∈ Bus.setInsertAll s xs ↔ u ∈ s ∨ u ∈ xs := by
  induction xs generalizing s with
  | nil => simp [Bus.setInsertAll]
  | cons x xs ih =>
    have h := ih (Bus.setInsert s x)
    unfold Bus.setInsertAll at h ⊢
    rw [List.foldl_cons, h]
    unfold Bus.setInsert
    split
    · rename_i hc
      have hc' : x ∈ s := by simpa using hc
      constructor
      · rintro (h | h)
        · exact Or.inl h
        · exact Or.inr (by simp [h])
      · rintro (h | h)
        · exact Or.inl h
        · rcases List.mem_cons.1 h with rfl | h
          · exact Or.inl hc'
          · exact Or.inr h
    · simp only [List.mem_append, List.mem_cons, List.not_mem_nil, or_false, or_assoc]

private theorem listens_subscribe (e : Bus.Endpoint F) (k k' : MsgKind) (r r' s : UID) (xs : List UID) :
    Listens (e.subscribe k' r' xs) k r s ↔ Listens e k r s ∨ (k' = k ∧ r' = r ∧ s ∈ xs) := by
  unfold Listens
  rw [Bus.findSub_subscribe]
  by_cases h : k' = k ∧ r' = r
  · rw [if_pos h]
    constructor
    · rintro ⟨sub, hs, hm⟩
      have := Option.some.inj hs
      subst this
      dsimp only at hm
      rcases (mem_setInsertAll _ _ _).1 hm with hm | hm
      · left
        rcases hf : e.findSub k r with _ | x
        · rw [hf] at hm; simp at hm
        · rw [hf] at hm; exact ⟨x, rfl, by simpa using hm⟩
      · exact Or.inr ⟨h.1, h.2, hm⟩
    · intro hor
      refine ⟨_, rfl, ?_⟩
      dsimp only
      rw [mem_setInsertAll]
      rcases hor with ⟨x, hx, hm⟩ | ⟨_, _, hm⟩
      · left; rw [hx]; simpa using hm
      · exact Or.inr hm
  · rw [if_neg h]
    constructor
    · exact Or.inl
    · rintro (h' | ⟨h1, h2, _⟩)
      · exact h'
      · exact absurd ⟨h1, h2⟩ h

/-- What the documentation of the backends promises: a projection hears its presynaptic population and, if it is
trained, its training populations; a population hears every projection that ends in it. -/
def Wired (ws : List Wire) (k : MsgKind) (r s : UID) : Prop :=
  (k = .spike ∧ ∃ w ∈ ws, w.uid = r ∧ s ≠ 0 ∧ (s = w.pre ∨ (w.isStdp = true ∧ s ∈ w.stdpPops))) ∨
  (k = .impact ∧ r ≠ 0 ∧ ∃ w ∈ ws, w.post = r ∧ w.uid = s)

private theorem listens_stdp (e : Bus.Endpoint F) (w : Wire) (k : MsgKind) (r s : UID) :
    Listens (subscribeStdp e w) k r s ↔
      Listens e k r s ∨ (k = .spike ∧ w.uid = r ∧ s ≠ 0 ∧ w.isStdp = true ∧ s ∈ w.stdpPops) := by
  unfold subscribeStdp
  by_cases hs : w.isStdp = true
  · rw [if_pos hs]
    suffices H : ∀ (l : List UID) (e : Bus.Endpoint F),
        Listens (l.foldl (fun e u => if u ≠ 0 then e.subscribe .spike w.uid [u] else e) e) k r s ↔
        Listens e k r s ∨ (k = .spike ∧ w.uid = r ∧ s ≠ 0 ∧ s ∈ l) by
      rw [H]
      constructor
      · rintro (h | ⟨h1, h2, h3, h4⟩)
        · exact Or.inl h
        · exact Or.inr ⟨h1, h2, h3, hs, h4⟩
      · rintro (h | ⟨h1, h2, h3, _, h4⟩)
        · exact Or.inl h
        · exact Or.inr ⟨h1, h2, h3, h4⟩
    intro l
    induction l with
    | nil => intro e; simp
    | cons u l ih =>
      intro e
      rw [List.foldl_cons, ih]
      by_cases hu : u ≠ 0
      · rw [if_pos hu, listens_subscribe]
        constructor
        · rintro ((h | ⟨h1, h2, h3⟩) | ⟨h1, h2, h3, h4⟩)
          · exact Or.inl h
          · have : s = u := by simpa using h3
            subst this
            exact Or.inr ⟨h1.symm, h2, hu, by simp⟩
          · exact Or.inr ⟨h1, h2, h3, by simp [h4]⟩
        · rintro (h | ⟨h1, h2, h3, h4⟩)
          · exact Or.inl (Or.inl h)
          · rcases List.mem_cons.1 h4 with rfl | h4
            · exact Or.inl (Or.inr ⟨h1.symm, h2, by simp⟩)
            · exact Or.inr ⟨h1, h2, h3, h4⟩
      · rw [if_neg hu]
        constructor
        · rintro (h | ⟨h1, h2, h3, h4⟩)
          · exact Or.inl h
          · exact Or.inr ⟨h1, h2, h3, by simp [h4]⟩
        · rintro (h | ⟨h1, h2, h3, h4⟩)
          · exact Or.inl h
          · rcases List.mem_cons.1 h4 with rfl | h4
            · exact absurd h3 hu
            · exact Or.inr ⟨h1, h2, h3, h4⟩
  · rw [if_neg hs]
    constructor
    · exact Or.inl
    · rintro (h | ⟨_, _, _, h, _⟩)
      · exact h
      · exact absurd h hs

private theorem listens_wireOne (e : Bus.Endpoint F) (w : Wire) (k : MsgKind) (r s : UID) :
    Listens (wireOne e w) k r s ↔ Listens e k r s ∨ Wired [w] k r s := by
  unfold wireOne
  dsimp only
  have hpre : Listens (if w.pre ≠ 0 then (subscribeStdp e w).subscribe .spike w.uid [w.pre] else subscribeStdp e w) k r s ↔
      Listens e k r s ∨ (k = .spike ∧ w.uid = r ∧ s ≠ 0 ∧ (s = w.pre ∨ (w.isStdp = true ∧ s ∈ w.stdpPops))) := by
    by_cases hp : w.pre ≠ 0
    · rw [if_pos hp, listens_subscribe, listens_stdp]
      constructor
      · rintro ((h | ⟨h1, h2, h3, h4, h5⟩) | ⟨h1, h2, h3⟩)
        · exact Or.inl h
        · exact Or.inr ⟨h1, h2, h3, Or.inr ⟨h4, h5⟩⟩
        · have : s = w.pre := by simpa using h3
          subst this
          exact Or.inr ⟨h1.symm, h2, hp, Or.inl rfl⟩
      · rintro (h | ⟨h1, h2, h3, h4 | ⟨h4, h5⟩⟩)
        · exact Or.inl (Or.inl h)
        · exact Or.inr ⟨h1.symm, h2, by simp [h4]⟩
        · exact Or.inl (Or.inr ⟨h1, h2, h3, h4, h5⟩)
    · rw [if_neg hp, listens_stdp]
      constructor
      · rintro (h | ⟨h1, h2, h3, h4, h5⟩)
        · exact Or.inl h
        · exact Or.inr ⟨h1, h2, h3, Or.inr ⟨h4, h5⟩⟩
      · rintro (h | ⟨h1, h2, h3, h4 | ⟨h4, h5⟩⟩)
        · exact Or.inl h
        · rw [h4] at h3; exact absurd h3 hp
        · exact Or.inr ⟨h1, h2, h3, h4, h5⟩
  generalize (if w.pre ≠ 0 then (subscribeStdp e w).subscribe .spike w.uid [w.pre] else subscribeStdp e w) = e2 at hpre ⊢
  unfold Wired
  by_cases hq : w.post ≠ 0
  · rw [if_pos hq, listens_subscribe, hpre]
    clear hpre
    constructor
    · rintro ((h | ⟨h1, h2, h3, h4⟩) | ⟨h1, h2, h3⟩)
      · exact Or.inl h
      · exact Or.inr (Or.inl ⟨h1, w, by simp, h2, h3, h4⟩)
      · have : s = w.uid := by simpa using h3
        exact Or.inr (Or.inr ⟨h1.symm, by rw [← h2]; exact hq, w, by simp, h2, this.symm⟩)
    · rintro (h | ⟨h1, x, hx, h2, h3, h4⟩ | ⟨h1, h2, x, hx, h3, h4⟩)
      · exact Or.inl (Or.inl h)
      · have : x = w := by simpa using hx
        subst this
        exact Or.inl (Or.inr ⟨h1, h2, h3, h4⟩)
      · have : x = w := by simpa using hx
        subst this
        exact Or.inr ⟨h1.symm, h3, by simp [h4]⟩
  · rw [if_neg hq, hpre]
    clear hpre
    constructor
    · rintro (h | ⟨h1, h2, h3, h4⟩)
      · exact Or.inl h
      · exact Or.inr (Or.inl ⟨h1, w, by simp, h2, h3, h4⟩)
    · rintro (h | ⟨h1, x, hx, h2, h3, h4⟩ | ⟨h1, h2, x, hx, h3, h4⟩)
      · exact Or.inl h
      · have : x = w := by simpa using hx
        subst this
        exact Or.inr ⟨h1, h2, h3, h4⟩
      · have : x = w := by simpa using hx
        subst this
        rw [← h3] at h2
        exact absurd h2 hq

/-- C92. Initialising a backend adds exactly the documented subscriptions: after it, receiver `r` hears messages of kind `k`
from `s` iff it did before or the network says so. Every list of projections, also with duplicated UIDs, missing ends,
several STDP populations. -/
theorem C92_wiring (ws : List Wire) (e : Bus.Endpoint F) (k : MsgKind) (r s : UID) :
    Listens (wireAll ws e) k r s ↔ Listens e k r s ∨ Wired ws k r s := by
  unfold wireAll
  induction ws generalizing e with
  | nil =>
    simp only [List.foldl_nil]
    constructor
    · exact Or.inl
    · rintro (h | ⟨_, w, hw, _⟩ | ⟨_, _, w, hw, _⟩)
      · exact h
      · cases hw
      · cases hw
  | cons w ws ih =>
    rw [List.foldl_cons, ih, listens_wireOne]
    unfold Wired
    constructor
    · rintro ((h | ⟨h1, x, hx, h2⟩ | ⟨h1, h2, x, hx, h3⟩) | ⟨h1, x, hx, h2⟩ | ⟨h1, h2, x, hx, h3⟩)
      · exact Or.inl h
      · exact Or.inr (Or.inl ⟨h1, x, by simp at hx; simp [hx], h2⟩)
      · exact Or.inr (Or.inr ⟨h1, h2, x, by simp at hx; simp [hx], h3⟩)
      · exact Or.inr (Or.inl ⟨h1, x, by simp [hx], h2⟩)
      · exact Or.inr (Or.inr ⟨h1, h2, x, by simp [hx], h3⟩)
    · rintro (h | ⟨h1, x, hx, h2⟩ | ⟨h1, h2, x, hx, h3⟩)
      · exact Or.inl (Or.inl h)
      · rcases List.mem_cons.1 hx with rfl | hx
        · exact Or.inl (Or.inr (Or.inl ⟨h1, x, by simp, h2⟩))
        · exact Or.inr (Or.inl ⟨h1, x, hx, h2⟩)
      · rcases List.mem_cons.1 hx with rfl | hx
        · exact Or.inl (Or.inr (Or.inr ⟨h1, h2, x, by simp, h3⟩))
        · exact Or.inr (Or.inr ⟨h1, h2, x, hx, h3⟩)

/-- Non-vacuity: projection 3 from population 1 to 2, trained by population 2; what a new endpoint ends up with. -/
example : (wireAll [⟨3, 1, 2, true, [2]⟩, ⟨4, 0, 2, false, []⟩] (Bus.Endpoint.fresh : Bus.Endpoint Nat)).subs.map
    (fun s => (s.kind, s.receiver, s.senders)) = [(.spike, 3, [2, 1]), (.impact, 2, [3, 4])] := by decide

/-! ## C93: the learning switch -/

/-- Calls that concern the lock. -/
inductive LearnOp (J : Type)
  | stop
  | start
  | load (l : List (ProjEntity J))

/-- Run a history of calls; `setLock` writes the lock flag of a projection's content. -/
def learnRun (setLock : Bool → J → J) (b : Backend P J Q) : List (LearnOp J) → Backend P J Q
  | [] => b
  | .stop :: l => learnRun setLock (onAllProjections (setLock true) b) l
  | .start :: l => learnRun setLock (onAllProjections (setLock false) b) l
  | .load ps :: l => learnRun setLock (loadProjections b ps).1 l

private theorem learn_append (setLock : Bool → J → J) (b : Backend P J Q) (l l' : List (LearnOp J)) :
    learnRun setLock b (l ++ l') = learnRun setLock (learnRun setLock b l) l' := by
  induction l generalizing b with
  | nil => rfl
  | cons op l ih => cases op <;> exact ih _

/-- C93. After `stop_learning` (`start_learning`), whatever happened before, every projection of the backend is locked
(unlocked), and nothing else about it, its order or its pending messages changes. -/
theorem C93_switch (setLock : Bool → J → J) (isLocked : J → Bool) (h : ∀ v j, isLocked (setLock v j) = v)
    (b : Backend P J Q) (l : List (LearnOp J)) :
    (∀ w ∈ (learnRun setLock b (l ++ [.stop])).projs, isLocked w.1.body = true) ∧
    (∀ w ∈ (learnRun setLock b (l ++ [.start])).projs, isLocked w.1.body = false) ∧
    (∀ op ∈ [LearnOp.stop, LearnOp.start],
      (learnRun setLock b (l ++ [op])).projs.map (fun w => (w.1.uid, w.1.pre, w.1.post, w.1.kind, w.2)) =
      (learnRun setLock b l).projs.map (fun w => (w.1.uid, w.1.pre, w.1.post, w.1.kind, w.2))) := by
  simp only [learn_append]
  refine ⟨?_, ?_, ?_⟩
  · intro w hw
    obtain ⟨x, _, rfl⟩ := List.mem_map.1 hw
    exact h true _
  · intro w hw
    obtain ⟨x, _, rfl⟩ := List.mem_map.1 hw
    exact h false _
  · intro op hop
    rcases List.mem_cons.1 hop with rfl | hop
    · simp [learnRun, onAllProjections, Function.comp_def]
    · obtain rfl := List.mem_singleton.1 hop
      simp [learnRun, onAllProjections, Function.comp_def]

/-- C93, limit: the switch is not remembered; projections loaded after `stop_learning` come with their own lock. -/
theorem C93_not_remembered : ∃ (b : Backend Nat Bool Nat) (l : List (LearnOp Bool)),
    .stop ∈ l ∧ .start ∉ l ∧ ∃ w ∈ (learnRun (fun v _ => v) b l).projs, w.1.body = false :=
  ⟨⟨fun _ => true, fun _ => true, [], []⟩, [.stop, .load [⟨1, 0, 0, 0, false⟩]], by simp, by simp,
    (⟨1, 0, 0, 0, false⟩, []), by simp [learnRun, loadProjections, loadFrom, onAllProjections], rfl⟩

example : (∀ (v j : Bool), id ((fun v _ => v) v j) = v) ∧
    (learnRun (fun v _ => v) (⟨fun _ => true, fun _ => true, [], []⟩ : Backend Nat Bool Nat)
      ([.load [⟨1, 0, 0, 0, false⟩, ⟨2, 0, 0, 0, true⟩]] ++ [.stop])).projs.map (fun w => w.1.body) = [true, true] :=
  ⟨fun _ _ => rfl, by decide⟩

end Knp.Props
