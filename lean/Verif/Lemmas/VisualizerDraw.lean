import Verif.Lemmas.Visualizer

/-! # Lemmas about drawings -/

namespace Knp.Vis
open Knp Knp.Spec

theorem each_ok {α β : Type} (f : α → Outcome β) (g : α → β) : ∀ (l : List α), (∀ x ∈ l, f x = .ok (g x)) → each f l = .ok (l.map g) := by
  intro l
  induction l with
  | nil => intro _; rfl
  | cons x l ih =>
    intro h
    unfold each
    rw [h x List.mem_cons_self]
    simp only [Outcome.bind]
    rw [ih (fun y hy => h y (List.mem_cons_of_mem _ hy))]
    rfl

theorem position_some {ns : List Nat} (hn : ns.Nodup) {x j : Nat} : position ns x = some j ↔ ns[j]? = some x := by
  unfold position
  constructor
  · intro h
    have := List.find?_some h
    exact eq_of_beq this
  · intro h
    have hj : j < ns.length := by
      rcases Nat.lt_or_ge j ns.length with h' | h'
      · exact h'
      · rw [List.getElem?_eq_none h'] at h; cases h
    cases hx : (List.range ns.length).find? (fun i => ns[i]? == some x) with
    | none =>
      exfalso
      rw [List.find?_eq_none] at hx
      exact hx j (List.mem_range.2 hj) (by simp [h])
    | some k =>
      have hk0 := List.find?_some hx
      have hk : ns[k]? = some x := eq_of_beq hk0
      rw [(List.getElem?_inj hj hn).1 (h.trans hk.symm)]

theorem position_none {ns : List Nat} {x : Nat} : position ns x = none ↔ x ∉ ns := by
  unfold position
  rw [List.find?_eq_none]
  constructor
  · intro h hx
    obtain ⟨i, hi⟩ := List.getElem?_of_mem hx
    have hlt : i < ns.length := by
      rcases Nat.lt_or_ge i ns.length with h' | h'
      · exact h'
      · rw [List.getElem?_eq_none h'] at hi; cases hi
    exact h i (List.mem_range.2 hlt) (by simp [hi])
  · intro h i _ hb
    exact h (List.mem_of_getElem? (eq_of_beq hb))

section
variable {P J : Type}

theorem uidAt_iff (name : P → String) (n : Network P J) (hn : (n.populations.map (·.uid)).Nodup) (ns : List Nat) (i : Nat) (u : UID) :
    uidAt n ns i = some u ↔ ∃ a, ns[i]? = some a ∧ indexOf (graphOf name n).nodes u = some a := by
  have hn' : ((graphOf name n).nodes.map (·.uid)).Nodup := by rw [graph_uids]; exact hn
  simp only [indexOf_iff hn', ← popAt_iff name]
  unfold uidAt PopAt
  cases ns[i]? with
  | none => simp
  | some a => simp

theorem shown_iff (name : P → String) (n : Network P J) (hn : (n.populations.map (·.uid)).Nodup) {ns : List Nat} (hs : ns.Nodup) (u : UID) (j : Nat) :
    (indexOf (graphOf name n).nodes u).bind (position ns) = some j ↔ uidAt n ns j = some u := by
  rw [uidAt_iff name n hn]
  cases indexOf (graphOf name n).nodes u with
  | none => simp
  | some k =>
    simp only [Option.bind_some, Option.some.injEq, position_some hs]
    constructor
    · intro h; exact ⟨k, h, rfl⟩
    · rintro ⟨a, h1, h2⟩; subst h2; exact h1

theorem count_rows (row : Nat → Nat → List Drawn) (x : Drawn) (i : Nat) (h : ∀ a k, k ≠ i → (row a k).count x = 0) : ∀ (ns : List Nat) (k : Nat),
    ((ns.zipIdx k).map (fun q => row q.1 q.2)).flatten.count x =
      if k ≤ i then (ns[i - k]?.map (fun a => (row a i).count x)).getD 0 else 0 := by
  intro ns
  induction ns with
  | nil => intro k; simp
  | cons a ns ih =>
    intro k
    rw [List.zipIdx_cons, List.map_cons, List.flatten_cons, List.count_append, ih (k + 1)]
    by_cases hk : k = i
    · subst hk
      simp
    · rw [h a k hk]
      by_cases hlt : k ≤ i
      · rw [if_pos hlt, if_pos (by omega)]
        have : i - k = (i - (k + 1)) + 1 := by omega
        rw [this, List.getElem?_cons_succ, Nat.zero_add]
      · rw [if_neg hlt, if_neg (by omega)]

/-- The lines drawn from a node. -/
def lineRow (name : P → String) (n : Network P J) (ns : List Nat) (a i : Nat) : List Drawn :=
  ((n.projections.filter (fun p => indexOf (graphOf name n).nodes p.pre = some a)).map (fun p => indexOf (graphOf name n).nodes p.post)).filterMap
    (fun v => (v.bind (position ns)).map (fun t => if t = i then Drawn.loop i else Drawn.arrow i t))

theorem drawEdges_eq (name : P → String) (n : Network P J) (ns : List Nat) (hr : ∀ a ∈ ns, a < n.populations.length) :
    drawEdges (adjOf (graphOf name n)) ns = .ok (ns.zipIdx.map (fun q => lineRow name n ns q.1 q.2)).flatten := by
  unfold drawEdges
  rw [each_ok _ (fun q : Nat × Nat => lineRow name n ns q.1 q.2)]
  · rfl
  · rintro ⟨a, i⟩ hq
    have ha : a ∈ ns := List.fst_mem_of_mem_zipIdx hq
    simp only [graph_row name n a (hr a ha)]
    rfl

theorem lineRow_count (name : P → String) (n : Network P J) (hn : (n.populations.map (·.uid)).Nodup) {ns : List Nat} (hs : ns.Nodup) (a i j : Nat)
    (ha : ns[i]? = some a) : (lineRow name n ns a i).count (link i j) = (linksAt n ns i j).length := by
  unfold lineRow linksAt
  rw [List.count, List.countP_filterMap, List.countP_map, List.countP_filter, List.countP_eq_length_filter]
  congr 1
  apply List.filter_congr
  intro p _
  have h1 : (uidAt n ns i == some p.pre) = decide (indexOf (graphOf name n).nodes p.pre = some a) := by
    rw [Bool.eq_iff_iff, beq_iff_eq, decide_eq_true_eq, uidAt_iff name n hn]
    constructor
    · rintro ⟨b, h1, h2⟩; rw [ha] at h1; cases h1; exact h2
    · intro h; exact ⟨a, ha, h⟩
  rw [h1, Bool.and_comm]
  congr 1
  have h2 := shown_iff name n hn hs p.post j
  rw [Bool.eq_iff_iff, beq_iff_eq, ← h2]
  simp only [Function.comp]
  cases (indexOf (graphOf name n).nodes p.post).bind (position ns) with
  | none => simp
  | some t =>
    simp only [Option.map_some, Option.getD_some, beq_iff_eq, Option.some.injEq]
    unfold link
    constructor
    · intro h
      by_cases h3 : t = i <;> by_cases h4 : i = j
      · exact h3.trans h4
      · rw [if_pos h3, if_neg h4] at h; cases h
      · rw [if_neg h3, if_pos h4] at h; cases h
      · rw [if_neg h3, if_neg h4] at h; cases h; rfl
    · intro h
      subst h
      by_cases h3 : t = i
      · rw [if_pos h3, if_pos h3.symm]
      · rw [if_neg h3, if_neg (fun h => h3 h.symm)]

theorem lineRow_other (name : P → String) (n : Network P J) (ns : List Nat) (a i j k : Nat) (h : k ≠ i) : (lineRow name n ns a k).count (link i j) = 0 := by
  rw [List.count_eq_zero]
  intro hm
  unfold lineRow at hm
  obtain ⟨v, _, hv⟩ := List.mem_filterMap.1 hm
  obtain ⟨t, _, ht⟩ := Option.map_eq_some_iff.1 hv
  unfold link at ht
  by_cases h3 : t = k <;> by_cases h4 : i = j
  · rw [if_pos h3, if_pos h4] at ht; cases ht; exact h rfl
  · rw [if_pos h3, if_neg h4] at ht; cases ht
  · rw [if_neg h3, if_pos h4] at ht; cases ht
  · rw [if_neg h3, if_neg h4] at ht; cases ht; exact h rfl

/-- The lines drawn. -/
theorem lines_count (name : P → String) (n : Network P J) (hn : (n.populations.map (·.uid)).Nodup) {ns : List Nat} (hs : ns.Nodup) (i j : Nat) :
    (ns.zipIdx.map (fun q => lineRow name n ns q.1 q.2)).flatten.count (link i j) = (linksAt n ns i j).length := by
  rw [count_rows (lineRow name n ns) _ i (fun a k h => lineRow_other name n ns a i j k h) ns 0]
  rw [if_pos (Nat.zero_le i), Nat.sub_zero]
  cases ha : ns[i]? with
  | none =>
    have : linksAt n ns i j = [] := by
      unfold linksAt
      rw [List.filter_eq_nil_iff]
      intro p _
      have : uidAt n ns i = none := by unfold uidAt; rw [ha]; rfl
      rw [this]; simp
    rw [this]; rfl
  | some a =>
    simp only [Option.map_some, Option.getD_some]
    exact lineRow_count name n hn hs a i j ha

/-- The inputs drawn. -/
theorem inputs_count (name : P → String) (n : Network P J) (hn : (n.populations.map (·.uid)).Nodup) {ns : List Nat} (hs : ns.Nodup) (j : Nat) :
    (((adjOf (graphOf name n)).getLastD []).filterMap (fun v => (v.bind (position ns)).map Drawn.input)).count (.input j) = (inputsAt n ns j).length := by
  have hlast : (adjOf (graphOf name n)).getLastD [] = (n.projections.filter (fun p => indexOf (graphOf name n).nodes p.pre = none)).map
      (fun p => indexOf (graphOf name n).nodes p.post) := by
    have h1 := graph_outside name n
    have h2 : (adjOf (graphOf name n)).length - 1 = n.populations.length := by rw [adjOf_length, graph_length]; omega
    rw [List.getLastD_eq_getLast?, List.getLast?_eq_getElem?, h2, h1]
    rfl
  rw [hlast]
  unfold inputsAt
  rw [List.count, List.countP_filterMap, List.countP_map, List.countP_filter, List.countP_eq_length_filter]
  congr 1
  apply List.filter_congr
  intro p _
  rw [Bool.and_comm]
  congr 1
  · rw [Bool.eq_iff_iff, decide_eq_true_eq, indexOf_none, graph_uids]
    simp
  · rw [Bool.eq_iff_iff, beq_iff_eq, ← shown_iff name n hn hs p.post j]
    simp only [Function.comp]
    cases (indexOf (graphOf name n).nodes p.post).bind (position ns) with
    | none => simp
    | some t => simp

/-- What `draw_annotated_subgraph` draws. -/
theorem drawn_eq (name : P → String) (n : Network P J) (ns : List Nat) (hr : ∀ a ∈ ns, a < n.populations.length) (hl : ns.length ≤ n.populations.length) :
    ∃ ts : List (List Drawn), ts = (List.range ns.length).map (fun i => [Drawn.dot i, Drawn.text i ((n.populations[i]?.map (fun p => name p.body)).getD "")]) ∧
      drawAnnotated (graphOf name n) ns = .ok (((adjOf (graphOf name n)).getLastD []).filterMap (fun v => (v.bind (position ns)).map Drawn.input) ++
        (ns.zipIdx.map (fun q => lineRow name n ns q.1 q.2)).flatten ++ ts.flatten) := by
  refine ⟨_, rfl, ?_⟩
  unfold drawAnnotated
  rw [graph_adj]
  simp only [Outcome.bind]
  rw [drawEdges_eq name n ns hr]
  simp only
  rw [each_ok _ (fun i => [Drawn.dot i, Drawn.text i ((n.populations[i]?.map (fun p => name p.body)).getD "")])]
  · intro i hi
    have h1 := List.mem_range.1 hi
    have h2 : i < n.populations.length := by omega
    have h3 : (graphOf name n).nodes[i]? = some ⟨n.populations[i].uid, name n.populations[i].body⟩ := by
      show (n.populations.map (fun p => (⟨p.uid, name p.body⟩ : Node)))[i]? = _
      rw [List.getElem?_map, List.getElem?_eq_getElem h2]
      rfl
    rw [List.getElem?_eq_getElem h2]
    simp only [h3]
    rfl

theorem labels_count_other {x : Drawn} (nm : Nat → String) (h : ∀ i, x ≠ .dot i) (h2 : ∀ i t, x ≠ .text i t) (m : Nat) :
    ((List.range m).map (fun i => [Drawn.dot i, Drawn.text i (nm i)])).flatten.count x = 0 := by
  rw [List.count_eq_zero]
  intro hm
  obtain ⟨l, hl, hx⟩ := List.mem_flatten.1 hm
  obtain ⟨i, _, rfl⟩ := List.mem_map.1 hl
  simp only [List.mem_cons, List.not_mem_nil, or_false] at hx
  rcases hx with e | e
  · exact h i e
  · exact h2 i _ e

theorem dots_count (nm : Nat → String) (i : Nat) : ∀ (m : Nat),
    ((List.range m).map (fun i => [Drawn.dot i, Drawn.text i (nm i)])).flatten.count (.dot i) = if i < m then 1 else 0 := by
  intro m
  induction m with
  | zero => rfl
  | succ m ih =>
    rw [List.range_succ, List.map_append, List.flatten_append, List.count_append, ih]
    simp only [List.map_cons, List.map_nil, List.flatten_cons, List.flatten_nil, List.append_nil, List.count_cons, List.count_nil]
    by_cases e : m = i
    · subst e; simp
    · have e' : ¬ Drawn.dot m = Drawn.dot i := fun h => e (by cases h; rfl)
      simp only [beq_iff_eq, e', reduceCtorEq, if_false]
      by_cases hlt : i < m
      · rw [if_pos hlt, if_pos (by omega)]
      · rw [if_neg hlt, if_neg (by omega)]

theorem texts_mem (nm : Nat → String) (i : Nat) (t : String) (m : Nat) :
    Drawn.text i t ∈ ((List.range m).map (fun i => [Drawn.dot i, Drawn.text i (nm i)])).flatten ↔ i < m ∧ nm i = t := by
  rw [List.mem_flatten]
  constructor
  · rintro ⟨l, hl, hx⟩
    obtain ⟨k, hk, rfl⟩ := List.mem_map.1 hl
    simp only [List.mem_cons, List.not_mem_nil, or_false, reduceCtorEq, false_or, Drawn.text.injEq] at hx
    obtain ⟨h1, h2⟩ := hx
    subst h1
    exact ⟨List.mem_range.1 hk, h2.symm⟩
  · rintro ⟨h1, h2⟩
    exact ⟨_, List.mem_map.2 ⟨i, List.mem_range.2 h1, rfl⟩, by simp [h2]⟩

/-! ## Springs -/

theorem setAll_length (at' : Option Nat → Nat) : ∀ (vs : List (Option Nat)) (row : List Bool),
    (vs.foldl (fun row w => row.set (at' w) true) row).length = row.length := by
  intro vs
  induction vs with
  | nil => intro row; rfl
  | cons v vs ih => intro row; rw [List.foldl_cons, ih, List.length_set]

theorem setAll_get (at' : Option Nat → Nat) (j : Nat) : ∀ (vs : List (Option Nat)) (row : List Bool), j < row.length →
    ((vs.foldl (fun row w => row.set (at' w) true) row)[j]? = some true ↔ row[j]? = some true ∨ ∃ v ∈ vs, at' v = j) := by
  intro vs
  induction vs with
  | nil => intro row _; simp
  | cons v vs ih =>
    intro row hj
    rw [List.foldl_cons, ih _ (by rw [List.length_set]; exact hj), List.getElem?_set]
    by_cases e : at' v = j
    · subst e
      simp [hj]
    · rw [if_neg e]
      constructor
      · rintro (h | ⟨w, hw, h⟩)
        · exact .inl h
        · exact .inr ⟨w, List.mem_cons_of_mem _ hw, h⟩
      · rintro (h | ⟨w, hw, h⟩)
        · exact .inl h
        · rcases List.mem_cons.1 hw with e' | e'
          · subst e'; exact absurd h e
          · exact .inr ⟨w, e', h⟩

/-- One row of the matrix of springs. -/
def springRow (name : P → String) (n : Network P J) (ns : List Nat) (a : Nat) : List Bool :=
  ((n.projections.filter (fun p => indexOf (graphOf name n).nodes p.pre = some a)).map (fun p => indexOf (graphOf name n).nodes p.post)).foldl
    (fun row w => row.set ((w.bind (position ns)).getD 0) true) (List.replicate ns.length false)

theorem springs_eq (name : P → String) (n : Network P J) (ns : List Nat) (hr : ∀ a ∈ ns, a < n.populations.length) :
    springs (adjOf (graphOf name n)) ns = .ok (ns.map (springRow name n ns)) := by
  unfold springs
  apply each_ok
  intro a ha
  simp only [graph_row name n a (hr a ha)]
  rfl

theorem spring_iff (name : P → String) (n : Network P J) (hn : (n.populations.map (·.uid)).Nodup) {ns : List Nat} (hs : ns.Nodup)
    (a j b : Nat) (hj : ns[j]? = some b) :
    (springRow name n ns a)[j]? = some true ↔
      Leads n a b ∨ (j = 0 ∧ ∃ p ∈ n.projections, PopAt n a p.pre ∧ ∀ c ∈ ns, ¬ PopAt n c p.post) := by
  have hn' : ((graphOf name n).nodes.map (·.uid)).Nodup := by rw [graph_uids]; exact hn
  have hlt : j < ns.length := by
    rcases Nat.lt_or_ge j ns.length with h' | h'
    · exact h'
    · rw [List.getElem?_eq_none h'] at hj; cases hj
  unfold springRow
  rw [setAll_get _ _ _ _ (by rw [List.length_replicate]; exact hlt)]
  unfold Leads
  simp only [popAt_iff name, ← indexOf_iff hn']
  rw [List.getElem?_replicate, if_pos hlt]
  simp only [Option.some.injEq, Bool.false_eq_true, false_or, List.mem_map, List.mem_filter, decide_eq_true_eq]
  constructor
  · rintro ⟨v, ⟨p, ⟨hp, hpre⟩, rfl⟩, hv⟩
    cases hx : (indexOf (graphOf name n).nodes p.post).bind (position ns) with
    | none =>
      rw [hx] at hv
      refine .inr ⟨hv.symm, p, hp, hpre, ?_⟩
      intro c hc hcp
      rw [hcp] at hx
      exact position_none.1 hx hc
    | some t =>
      rw [hx] at hv
      simp only [Option.getD_some] at hv
      subst hv
      rw [shown_iff name n hn hs, uidAt_iff name n hn] at hx
      obtain ⟨c, h1, h2⟩ := hx
      rw [hj] at h1; cases h1
      exact .inl ⟨p, hp, hpre, h2⟩
  · rintro (⟨p, hp, hpre, hpost⟩ | ⟨hj0, p, hp, hpre, hno⟩)
    · refine ⟨_, ⟨p, ⟨hp, hpre⟩, rfl⟩, ?_⟩
      rw [hpost]
      simp only [Option.bind_some, (position_some hs).2 hj, Option.getD_some]
    · refine ⟨_, ⟨p, ⟨hp, hpre⟩, rfl⟩, ?_⟩
      cases hx : indexOf (graphOf name n).nodes p.post with
      | none => rw [hj0]; rfl
      | some k =>
        have : position ns k = none := position_none.2 (fun hk => hno k hk hx)
        rw [hj0]
        simp only [Option.bind_some, this, Option.getD_none]

end

end Knp.Vis
