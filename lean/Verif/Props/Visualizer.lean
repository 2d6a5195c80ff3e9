import Verif.Lemmas.VisualizerDraw

/-! # The network visualizer: properties -/

namespace Knp.Props
open Knp Knp.Spec Knp.Vis

variable {P J : Type}

/-! ## C146: the parts of the picture are the connected parts of the network -/

/-- Every projection ends in a population of the network. -/
def NoOutputs (n : Network P J) : Prop := ∀ p ∈ n.projections, p.post ∈ n.populations.map (·.uid)

/-- **C146.**  The parts `divide_graph_by_connectivity` finds are the connected parts of the network, whatever elements its sets begin with. -/
def C146_statement : Prop :=
  ∀ (P J : Type) (name : P → String) (n : Network P J), (n.populations.map (·.uid)).Nodup → ∀ pick : Nat → Nat,
    ∃ N, ∃ ss, (∀ fuel ≥ N, divide pick fuel (graphOf name n) = .ok (some ss)) ∧ AreParts n ss

/-- The loops end, and what they find are the connected parts, for every network all projections of which end in it. -/
theorem C146_parts_partial (name : P → String) (n : Network P J) (hn : (n.populations.map (·.uid)).Nodup) (ho : NoOutputs n) (pick : Nat → Nat)
    (fuel : Nat) (hf : n.populations.length + 1 ≤ fuel) :
    ∃ ss, divide pick fuel (graphOf name n) = .ok (some ss) ∧ AreParts n ss := by
  have hlen : (adjOf (graphOf name n)).length = n.populations.length + 1 := by rw [adjOf_length, graph_length]
  have hin : ∀ vs ∈ adjOf (graphOf name n), ∀ v ∈ vs, ∃ k, v = some k ∧ k < n.populations.length := by
    intro vs hvs v hv
    unfold adjOf at hvs
    obtain ⟨i, _, rfl⟩ := List.mem_map.1 hvs
    obtain ⟨e, he, rfl⟩ := List.mem_map.1 hv
    rw [List.mem_filter, graph_edges] at he
    obtain ⟨p, hp, rfl⟩ := List.mem_map.1 he.1
    cases hx : indexOf (graphOf name n).nodes p.post with
    | none => rw [indexOf_none, graph_uids] at hx; exact absurd (ho p hp) hx
    | some k => have := indexOf_lt hx; rw [graph_length] at this; exact ⟨k, rfl, this⟩
  have hrev : Vis.reverse (adjOf (graphOf name n)) = .ok (revOf (adjOf (graphOf name n))) := by
    apply reverse_eq
    intro vs hvs v hv
    obtain ⟨k, h1, h2⟩ := hin vs hvs v hv
    exact ⟨k, h1, by omega⟩
  have hd : divide pick fuel (graphOf name n) = divideLoop pick (adjOf (graphOf name n)) (revOf (adjOf (graphOf name n))) [n.populations.length]
      fuel fuel 0 (List.range n.populations.length) := by
    unfold divide
    rw [graph_adj]
    simp only [Outcome.bind]
    rw [hrev]
    simp only [hlen, Nat.add_sub_cancel]
    rw [List.range_succ, List.erase_append_right _ (by simp)]
    simp
  have hb : ∀ c m, Nb (adjOf (graphOf name n)) (revOf (adjOf (graphOf name n))) c m → m < (adjOf (graphOf name n)).length := by
    rintro c m (⟨a, ha, hm⟩ | ⟨r, hr, hm⟩)
    · obtain ⟨k, h1, h2⟩ := hin a (List.mem_of_getElem? ha) _ hm
      cases h1; omega
    · obtain ⟨vs, h, _⟩ := (mem_revOf _ _ _ _ hr).1 hm
      rcases Nat.lt_or_ge m (adjOf (graphOf name n)).length with h' | h'
      · exact h'
      · rw [List.getElem?_eq_none h'] at h; cases h
  have hsym : ∀ c m, Nb (adjOf (graphOf name n)) (revOf (adjOf (graphOf name n))) c m → Nb (adjOf (graphOf name n)) (revOf (adjOf (graphOf name n))) m c := by
    intro c m h
    have hm := hb c m h
    rcases h with ⟨a, ha, h⟩ | ⟨r, hr, h⟩
    · right
      have hlt : m < (revOf (adjOf (graphOf name n))).length := by rw [revOf_length]; exact hm
      exact ⟨_, List.getElem?_eq_getElem hlt, (mem_revOf _ _ _ _ (List.getElem?_eq_getElem hlt)).2 ⟨a, ha, h⟩⟩
    · exact .inl ((mem_revOf _ _ _ _ hr).1 h)
  have hlt : ∀ c m, Nb (adjOf (graphOf name n)) (revOf (adjOf (graphOf name n))) c m → m ∉ [n.populations.length] → m < n.populations.length := by
    intro c m h hm
    have := hb c m h
    rw [List.mem_singleton] at hm
    omega
  have hreach : ∀ i j, i < n.populations.length →
      Reach (adjOf (graphOf name n)) (revOf (adjOf (graphOf name n))) [n.populations.length] i j → j < n.populations.length ∧ Connected n i j := by
    intro i j hi h
    induction h with
    | refl => exact ⟨hi, .refl⟩
    | step _ hnb hm ih =>
      have hml := hlt _ _ hnb hm
      refine ⟨hml, ?_⟩
      rcases (graph_reach name n hn rfl _ _ ih.1 hml).1 hnb with h | h
      · exact .fwd ih.2 h
      · exact .bwd ih.2 h
  have hpop : ∀ i u, PopAt n i u → i < n.populations.length := by
    rintro i u ⟨p, hp, _⟩
    rcases Nat.lt_or_ge i n.populations.length with h' | h'
    · exact h'
    · rw [List.getElem?_eq_none h'] at hp; cases hp
  have hconn : ∀ i j, i < n.populations.length → Connected n i j →
      j < n.populations.length ∧ Reach (adjOf (graphOf name n)) (revOf (adjOf (graphOf name n))) [n.populations.length] i j := by
    intro i j hi h
    induction h with
    | refl => exact ⟨hi, .refl⟩
    | fwd _ hl ih =>
      obtain ⟨p, _, _, h2⟩ := id hl
      have hk := hpop _ _ h2
      exact ⟨hk, .step ih.2 ((graph_reach name n hn rfl _ _ ih.1 hk).2 (.inl hl)) (by simp; omega)⟩
    | bwd _ hl ih =>
      obtain ⟨p, _, h1, _⟩ := id hl
      have hk := hpop _ _ h1
      exact ⟨hk, .step ih.2 ((graph_reach name n hn rfl _ _ ih.1 hk).2 (.inr hl)) (by simp; omega)⟩
  obtain ⟨ss, q1, q2, q3⟩ := divideLoop_spec (pick := pick) (ign := [n.populations.length]) hb (revOf_length _) hsym fuel (by omega) fuel 0
    (List.range n.populations.length) (by rw [List.length_range]; omega) List.nodup_range
    (by intro x hx; have := List.mem_range.1 hx; exact ⟨by omega, by simp; omega⟩)
    (by intro x hx y hxy; exact List.mem_range.2 (hreach x y (List.mem_range.1 hx) hxy).1)
  refine ⟨ss, hd.trans q1, q2, ?_⟩
  intro s hs
  obtain ⟨r1, r2, r3⟩ := q3 s hs
  refine ⟨r1, r2, ?_⟩
  intro i hi j
  have hil : i < n.populations.length := List.mem_range.1 (q2.mem_iff.1 (List.mem_flatten.2 ⟨s, hs, hi⟩))
  rw [r3 i hi j]
  exact ⟨fun h => (hreach i j hil h).2, fun h => (hconn i j hil h).2⟩

/-- A projection that leaves the network: an element past the end of the adjacency list is written. -/
theorem C146_outputs (name : P → String) (n : Network P J) (p : ProjEntity J) (hp : p ∈ n.projections) (ho : p.post ∉ n.populations.map (·.uid))
    (pick : Nat → Nat) (fuel : Nat) : divide pick fuel (graphOf name n) = .ub := by
  unfold divide
  rw [graph_adj]
  simp only [Outcome.bind]
  have hpost : indexOf (graphOf name n).nodes p.post = none := by rw [indexOf_none, graph_uids]; exact ho
  have : ∃ (i : Nat) (vs : List (Option Nat)), (adjOf (graphOf name n))[i]? = some vs ∧ none ∈ vs := by
    cases hpre : indexOf (graphOf name n).nodes p.pre with
    | none =>
      exact ⟨_, _, graph_outside name n, List.mem_map.2 ⟨p, List.mem_filter.2 ⟨hp, by simp [hpre]⟩, hpost⟩⟩
    | some i =>
      have hlt := indexOf_lt hpre
      rw [graph_length] at hlt
      exact ⟨_, _, graph_row name n i hlt, List.mem_map.2 ⟨p, List.mem_filter.2 ⟨hp, by simp [hpre]⟩, hpost⟩⟩
  obtain ⟨i, vs, h1, h2⟩ := this
  rw [reverse_ub _ i vs h1 h2]

namespace VisEx
/-- Populations 10, 11, 12, 13; 12 → 10, input → 11. -/
def net : Network Unit Unit := ⟨[⟨10, 0, ()⟩, ⟨11, 0, ()⟩, ⟨12, 0, ()⟩, ⟨13, 0, ()⟩],
  [⟨20, 12, 10, 0, ()⟩, ⟨21, 99, 11, 0, ()⟩, ⟨22, 10, 10, 0, ()⟩]⟩
/-- A network with an output projection. -/
def out : Network Unit Unit := ⟨[⟨10, 0, ()⟩], [⟨20, 10, 99, 0, ()⟩]⟩
end VisEx

example : (VisEx.net.populations.map (·.uid)).Nodup ∧ NoOutputs VisEx.net ∧
    divide (fun _ => 0) 5 (graphOf (fun _ => "p") VisEx.net) = .ok (some [[0, 2], [1], [3]]) ∧
    divide (fun _ => 1) 5 (graphOf (fun _ => "p") VisEx.net) = .ok (some [[1], [0, 2], [3]]) := by
  refine ⟨by decide, by unfold NoOutputs; decide, ?_, ?_⟩ <;> decide +kernel

theorem C146_parts_refuted : ¬ C146_statement := by
  intro h
  obtain ⟨N, ss, h1, _⟩ := h Unit Unit (fun _ => "p") VisEx.out (by decide) (fun _ => 0)
  have := h1 N (Nat.le_refl N)
  rw [C146_outputs (fun _ => "p") VisEx.out ⟨20, 10, 99, 0, ()⟩ (by decide) (by decide)] at this
  cases this

/-! ## C147: the springs of the layout are the projections -/

/-- Distinct populations of the network. -/
def Nodes (n : Network P J) (ns : List Nat) : Prop := ns.Nodup ∧ ∀ a ∈ ns, a < n.populations.length

/-- **C147.**  Two nodes of the layout are joined by a spring exactly if there is a projection between them. -/
def C147_statement : Prop :=
  ∀ (P J : Type) (name : P → String) (n : Network P J), (n.populations.map (·.uid)).Nodup → ∀ ns, Nodes n ns →
    ∃ mat, (buildAdj (graphOf name n)).bind (springs · ns) = .ok mat ∧ SpringsRight n ns mat

/-- Which springs there are: the projections, and one to the *first* node for every projection to a population that is not among the nodes. -/
theorem C147_exact (name : P → String) (n : Network P J) (hn : (n.populations.map (·.uid)).Nodup) (ns : List Nat) (hs : Nodes n ns) :
    ∃ mat, (buildAdj (graphOf name n)).bind (springs · ns) = .ok mat ∧
      ∀ (i j a b : Nat), ns[i]? = some a → ns[j]? = some b → ((mat[i]?.bind (·[j]?)) = some true ↔
        Leads n a b ∨ (j = 0 ∧ ∃ p ∈ n.projections, PopAt n a p.pre ∧ ∀ c ∈ ns, ¬ PopAt n c p.post)) := by
  refine ⟨ns.map (springRow name n ns), ?_, ?_⟩
  · rw [graph_adj]
    exact springs_eq name n ns hs.2
  · intro i j a b hi hj
    rw [List.getElem?_map, hi]
    exact spring_iff name n hn hs.1 a j b hj

/-- No projection leads out of the nodes. -/
def ClosedNodes (n : Network P J) (ns : List Nat) : Prop :=
  ∀ p ∈ n.projections, ∀ a ∈ ns, PopAt n a p.pre → ∃ c ∈ ns, PopAt n c p.post

theorem C147_springs_partial (name : P → String) (n : Network P J) (hn : (n.populations.map (·.uid)).Nodup) (ns : List Nat) (hs : Nodes n ns)
    (hc : ClosedNodes n ns) : ∃ mat, (buildAdj (graphOf name n)).bind (springs · ns) = .ok mat ∧ SpringsRight n ns mat := by
  obtain ⟨mat, h1, h2⟩ := C147_exact name n hn ns hs
  refine ⟨mat, h1, ?_⟩
  intro i j a b hi hj
  rw [h2 i j a b hi hj]
  constructor
  · rintro (h | ⟨_, p, hp, hpre, hno⟩)
    · exact h
    · obtain ⟨c, hc1, hc2⟩ := hc p hp a (List.mem_of_getElem? hi) hpre
      exact absurd hc2 (hno c hc1)
  · exact .inl

/-- The parts of a network are closed. -/
theorem C147_parts (n : Network P J) (ho : NoOutputs n) (ss : List (List Nat)) (h : AreParts n ss) (s : List Nat) (hs : s ∈ ss) :
    Nodes n s ∧ ClosedNodes n s := by
  obtain ⟨h1, h2⟩ := h
  obtain ⟨_, hp, hc⟩ := h2 s hs
  refine ⟨⟨hp.imp (fun h => by omega), ?_⟩, ?_⟩
  · intro a ha
    exact List.mem_range.1 (h1.mem_iff.1 (List.mem_flatten.2 ⟨s, hs, ha⟩))
  · intro p hpm a ha hpre
    obtain ⟨q, hq, hqu⟩ := List.mem_map.1 (ho p hpm)
    obtain ⟨c, hcc⟩ := List.getElem?_of_mem hq
    have hpost : PopAt n c p.post := ⟨q, hcc, hqu⟩
    exact ⟨c, (hc a ha c).2 (.fwd .refl ⟨p, hpm, hpre, hpost⟩), hpost⟩

/-- The layout of each part `divide_graph_by_connectivity` finds has the right springs. -/
theorem C147_divided (name : P → String) (n : Network P J) (hn : (n.populations.map (·.uid)).Nodup) (ho : NoOutputs n) (pick : Nat → Nat)
    (fuel : Nat) (hf : n.populations.length + 1 ≤ fuel) :
    ∃ ss, divide pick fuel (graphOf name n) = .ok (some ss) ∧
      ∀ s ∈ ss, ∃ mat, (buildAdj (graphOf name n)).bind (springs · s) = .ok mat ∧ SpringsRight n s mat := by
  obtain ⟨ss, h1, h2⟩ := C146_parts_partial name n hn ho pick fuel hf
  refine ⟨ss, h1, fun s hs => ?_⟩
  obtain ⟨h3, h4⟩ := C147_parts n ho ss h2 s hs
  exact C147_springs_partial name n hn s h3 h4

/-- The nodes 1 and 2 of `VisEx.net`, one of which projects to node 0: a spring that should not be there. -/
theorem C147_springs_refuted : ¬ C147_statement := by
  intro h
  obtain ⟨mat, h1, h2⟩ := h Unit Unit (fun _ => "p") VisEx.net (by decide) [1, 2] ⟨by decide, by decide⟩
  have e : (buildAdj (graphOf (fun _ => "p") VisEx.net)).bind (springs · [1, 2]) = .ok [[false, false], [true, false]] := by decide +kernel
  rw [e] at h1
  cases h1
  obtain ⟨p, hp, h3, h4⟩ := (h2 1 0 2 1 rfl rfl).1 rfl
  obtain ⟨q, hq, hq2⟩ := h3
  obtain ⟨r, hr, hr2⟩ := h4
  cases hq; cases hr
  simp only [VisEx.net, List.mem_cons, List.not_mem_nil, or_false] at hp
  rcases hp with rfl | rfl | rfl <;> revert hq2 hr2 <;> decide

example : Nodes VisEx.net [0, 2] ∧ ClosedNodes VisEx.net [0, 2] ∧
    (buildAdj (graphOf (fun _ => "p") VisEx.net)).bind (springs · [0, 2]) = .ok [[true, false], [true, false]] := by
  refine ⟨⟨by decide, by decide⟩, ?_, by decide +kernel⟩
  intro p hp a ha h
  obtain ⟨h1, _⟩ | ⟨h1, _⟩ : (p.post = 10 ∧ True) ∨ (p.pre = 99 ∧ True) := by
    simp only [VisEx.net, List.mem_cons, List.not_mem_nil, or_false] at hp
    rcases hp with rfl | rfl | rfl <;> simp
  · exact ⟨0, by decide, ⟨10, 0, ()⟩, rfl, h1.symm⟩
  · exfalso
    obtain ⟨q, hq, hq2⟩ := h
    rw [h1] at hq2
    have := List.mem_of_getElem? hq
    simp only [VisEx.net, List.mem_cons, List.not_mem_nil, or_false] at this
    rcases this with rfl | rfl | rfl | rfl <;> revert hq2 <;> decide

/-! ## C150: what is drawn -/

/-- **C150.**  The picture of some populations shows one line for each projection between them and each input of them, one dot for each of them
and its name at the dot. -/
def C150_statement : Prop :=
  ∀ (P J : Type) (name : P → String) (n : Network P J), (n.populations.map (·.uid)).Nodup → ∀ ns, Nodes n ns →
    ∃ d, drawAnnotated (graphOf name n) ns = .ok d ∧ LinesRight n ns d ∧ DotsRight ns d ∧ LabelsRight name n ns d

/-- Lines and dots are right; the names are those of the *first* populations of the network. -/
theorem C150_picture_partial (name : P → String) (n : Network P J) (hn : (n.populations.map (·.uid)).Nodup) (ns : List Nat) (hs : Nodes n ns) :
    ∃ d, drawAnnotated (graphOf name n) ns = .ok d ∧ LinesRight n ns d ∧ DotsRight ns d ∧
      LabelsRight name n (List.range ns.length) d := by
  have hl : ns.length ≤ n.populations.length := length_le_of_bounded hs.1 hs.2
  obtain ⟨ts, ht, hd⟩ := drawn_eq name n ns hs.2 hl
  refine ⟨_, hd, ⟨?_, ?_⟩, ?_, ?_⟩
  · intro i j
    rw [List.count_append, List.count_append, lines_count name n hn hs.1 i j, ht, labels_count_other _
      (by intro k; unfold link; split <;> simp) (by intro k t; unfold link; split <;> simp), List.count_eq_zero.2, Nat.zero_add, Nat.add_zero]
    intro hm
    obtain ⟨v, _, hv⟩ := List.mem_filterMap.1 hm
    obtain ⟨t, _, hv⟩ := Option.map_eq_some_iff.1 hv
    revert hv; unfold link; split <;> simp
  · intro j
    rw [List.count_append, List.count_append, inputs_count name n hn hs.1 j, ht, labels_count_other _ (by simp) (by simp), List.count_eq_zero.2,
      Nat.add_zero]
    intro hm
    obtain ⟨l, hl, hx⟩ := List.mem_flatten.1 hm
    obtain ⟨q, _, rfl⟩ := List.mem_map.1 hl
    obtain ⟨v, _, hv⟩ := List.mem_filterMap.1 hx
    obtain ⟨t, _, hv⟩ := Option.map_eq_some_iff.1 hv
    revert hv; split <;> simp
  · intro i
    rw [List.count_append, List.count_append, ht, dots_count, List.count_eq_zero.2, List.count_eq_zero.2]
    · simp
    · intro hm
      obtain ⟨l, hl, hx⟩ := List.mem_flatten.1 hm
      obtain ⟨q, _, rfl⟩ := List.mem_map.1 hl
      obtain ⟨v, _, hv⟩ := List.mem_filterMap.1 hx
      obtain ⟨t, _, hv⟩ := Option.map_eq_some_iff.1 hv
      revert hv; split <;> simp
    · intro hm
      obtain ⟨v, _, hv⟩ := List.mem_filterMap.1 hm
      obtain ⟨t, _, hv⟩ := Option.map_eq_some_iff.1 hv
      cases hv
  · intro i t
    rw [List.mem_append, List.mem_append, ht, texts_mem]
    constructor
    · rintro ((hm | hm) | ⟨h1, h2⟩)
      · obtain ⟨v, _, hv⟩ := List.mem_filterMap.1 hm
        obtain ⟨t, _, hv⟩ := Option.map_eq_some_iff.1 hv
        cases hv
      · obtain ⟨l, hl, hx⟩ := List.mem_flatten.1 hm
        obtain ⟨q, _, rfl⟩ := List.mem_map.1 hl
        obtain ⟨v, _, hv⟩ := List.mem_filterMap.1 hx
        obtain ⟨t, _, hv⟩ := Option.map_eq_some_iff.1 hv
        revert hv; split <;> simp
      · have h3 : i < n.populations.length := by omega
        rw [List.getElem?_range h1]
        rw [List.getElem?_eq_getElem h3] at h2
        simp only [Option.bind_some, List.getElem?_eq_getElem h3]
        simpa using h2
    · intro h
      right
      cases hx : (List.range ns.length)[i]? with
      | none => rw [hx] at h; cases h
      | some k =>
        rw [hx] at h
        have h1 : i < ns.length := by
          rcases Nat.lt_or_ge i ns.length with h' | h'
          · exact h'
          · rw [List.getElem?_eq_none (by rw [List.length_range]; exact h')] at hx; cases hx
        rw [List.getElem?_range h1] at hx
        cases hx
        refine ⟨h1, ?_⟩
        simp only [Option.bind_some] at h
        rw [h]; rfl

/-- The whole picture is right if the nodes are the first populations of the network, in order. -/
theorem C150_prefix (name : P → String) (n : Network P J) (hn : (n.populations.map (·.uid)).Nodup) (m : Nat) (hm : m ≤ n.populations.length) :
    ∃ d, drawAnnotated (graphOf name n) (List.range m) = .ok d ∧ LinesRight n (List.range m) d ∧ DotsRight (List.range m) d ∧
      LabelsRight name n (List.range m) d := by
  have := C150_picture_partial name n hn (List.range m) ⟨List.nodup_range, fun a ha => by have := List.mem_range.1 ha; omega⟩
  rw [List.length_range] at this
  exact this

namespace VisEx
/-- Two unconnected populations with different names. -/
def two : Network String Unit := ⟨[⟨10, 0, "INPUT"⟩, ⟨11, 0, "OUTPUT"⟩], [⟨20, 99, 11, 0, ()⟩, ⟨21, 11, 11, 0, ()⟩]⟩
end VisEx

/-- The picture of the part with the second population: it gets the name of the first. -/
theorem C150_picture_refuted : ¬ C150_statement := by
  intro h
  obtain ⟨d, h1, _, _, h2⟩ := h String Unit id VisEx.two (by decide) [1] ⟨by decide, by decide⟩
  have e : drawAnnotated (graphOf id VisEx.two) [1] = .ok [.input 0, .loop 0, .dot 0, .text 0 "INPUT"] := by decide +kernel
  rw [e] at h1
  cases h1
  exact absurd ((h2 0 "INPUT").1 (by decide)) (by decide)

example : Nodes VisEx.two [1] ∧ divide (fun _ => 0) 3 (graphOf id VisEx.two) = .ok (some [[0], [1]]) ∧
    (linksAt VisEx.two [1] 0 0).length = 1 ∧ (inputsAt VisEx.two [1] 0).length = 1 :=
  ⟨⟨by decide, by decide⟩, by decide +kernel, by decide +kernel, by decide +kernel⟩

end Knp.Props
