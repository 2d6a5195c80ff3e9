import Verif.Spec.Visualizer
import Mathlib.Data.List.Perm.Subperm
import Mathlib.Data.List.Nodup

/-! # Lemmas about the visualizer -/

namespace Knp.Vis
open Knp

/-! ## Adjacency lists -/

theorem foldlM_cons' {α β : Type} (f : β → α → Outcome β) (b : β) (a : α) (l : List α) :
    List.foldlM f b (a :: l) = (f b a).bind (fun b' => List.foldlM f b' l) := rfl

theorem pushAt_ok {α : Type} (l : List (List α)) (i : Nat) (x : α) (h : i < l.length) :
    pushAt l i x = .ok (l.mapIdx (fun k ys => if k = i then ys ++ [x] else ys)) := by
  unfold pushAt
  rw [List.getElem?_eq_getElem h]
  simp only
  congr 1
  apply List.ext_getElem?
  intro k
  rw [List.getElem?_set, List.getElem?_mapIdx]
  by_cases e : i = k
  · subst e
    simp [h]
  · rw [if_neg e]
    cases hk : l[k]? with
    | none => rfl
    | some ys =>
      have e' : ¬ k = i := fun h => e h.symm
      simp [e']

/-- Elements appended to lists one after another. -/
theorem pushAll {α β : Type} (at' : β → Nat) (val : β → α) : ∀ (es : List β) (acc : List (List α)), (∀ e ∈ es, at' e < acc.length) →
    es.foldlM (fun l e => pushAt l (at' e) (val e)) acc = .ok (acc.mapIdx (fun i ys => ys ++ (es.filter (fun e => at' e = i)).map val)) := by
  intro es
  induction es with
  | nil =>
    intro acc _
    show Outcome.ok acc = _
    congr 1
    apply List.ext_getElem?
    intro i
    rw [List.getElem?_mapIdx]
    cases acc[i]? <;> simp
  | cons e es ih =>
    intro acc h
    rw [foldlM_cons', pushAt_ok _ _ _ (h e List.mem_cons_self)]
    simp only [Outcome.bind]
    rw [ih _ (by intro e' he'; rw [List.length_mapIdx]; exact h e' (List.mem_cons_of_mem _ he'))]
    congr 1
    apply List.ext_getElem?
    intro i
    simp only [List.getElem?_mapIdx]
    cases acc[i]? with
    | none => rfl
    | some ys =>
      simp only [Option.map_some, Option.some.injEq]
      by_cases he : at' e = i
      · rw [if_pos he.symm, List.filter_cons_of_pos (by simpa using he)]; simp
      · rw [if_neg (fun h => he h.symm), List.filter_cons_of_neg (by simpa using he)]

/-- The adjacency list of a graph. -/
def adjOf (g : Graph) : List (List (Option Nat)) :=
  (List.range (g.nodes.length + 1)).map (fun i => (g.edges.filter (fun e => e.src.getD g.nodes.length = i)).map (·.dst))

theorem mapIdx_replicate {α β : Type} (f : Nat → α → β) (n : Nat) (x : α) : (List.replicate n x).mapIdx f = (List.range n).map (fun i => f i x) := by
  apply List.ext_getElem?
  intro i
  rw [List.getElem?_mapIdx, List.getElem?_map, List.getElem?_replicate]
  split
  · rename_i h; rw [List.getElem?_range h]; rfl
  · rename_i h; rw [List.getElem?_eq_none (by rw [List.length_range]; omega)]; rfl

theorem buildAdj_eq (g : Graph) (h : ∀ e ∈ g.edges, ∀ i, e.src = some i → i < g.nodes.length) : buildAdj g = .ok (adjOf g) := by
  unfold buildAdj
  rw [pushAll (fun e : Edge => e.src.getD g.nodes.length) (fun e : Edge => e.dst) g.edges]
  · rw [mapIdx_replicate]; rfl
  · intro e he
    rw [List.length_replicate]
    cases hs : e.src with
    | none => simp
    | some i => have := h e he i hs; simp; omega

theorem adjOf_length (g : Graph) : (adjOf g).length = g.nodes.length + 1 := by unfold adjOf; simp

theorem adjOf_get (g : Graph) (i : Nat) (h : i ≤ g.nodes.length) :
    (adjOf g)[i]? = some ((g.edges.filter (fun e => e.src.getD g.nodes.length = i)).map (·.dst)) := by
  unfold adjOf
  rw [List.getElem?_map, List.getElem?_range (by omega)]
  rfl

/-- A reversed adjacency list. -/
def revOf (adj : List (List (Option Nat))) : List (List (Option Nat)) :=
  (List.range adj.length).map (fun k => (List.range adj.length).flatMap (fun i => ((adj.getD i []).filter (fun v => v = some k)).map (fun _ => some i)))

theorem reverse_inner (i : Nat) (vs : List (Option Nat)) (acc : List (List (Option Nat))) (h : ∀ v ∈ vs, ∃ k, v = some k ∧ k < acc.length) :
    vs.foldlM (pushBack i) acc = .ok (acc.mapIdx (fun k ys => ys ++ (vs.filter (fun v => v = some k)).map (fun _ => some i))) := by
  have h1 : ∀ (vs : List (Option Nat)) (acc : List (List (Option Nat))), (∀ v ∈ vs, ∃ k, v = some k ∧ k < acc.length) →
      vs.foldlM (pushBack i) acc = vs.foldlM (fun rev v => pushAt rev (v.getD 0) (some i)) acc := by
    intro vs
    induction vs with
    | nil => intro acc _; rfl
    | cons v vs ih =>
      intro acc h
      obtain ⟨k, rfl, hk⟩ := h v List.mem_cons_self
      rw [foldlM_cons', foldlM_cons']
      simp only [Option.getD_some, pushBack]
      rw [pushAt_ok _ _ _ hk]
      simp only [Outcome.bind]
      exact ih _ (fun w hw => by rw [List.length_mapIdx]; exact h w (List.mem_cons_of_mem _ hw))
  rw [h1 vs acc h, pushAll (fun v : Option Nat => v.getD 0) (fun _ => some i) vs acc (by
    intro v hv; obtain ⟨k, rfl, hk⟩ := h v hv; exact hk)]
  congr 1
  apply List.ext_getElem?
  intro k
  simp only [List.getElem?_mapIdx]
  cases acc[k]? with
  | none => rfl
  | some ys =>
    simp only [Option.map_some, Option.some.injEq, List.append_cancel_left_eq]
    congr 1
    apply List.filter_congr
    intro v hv
    obtain ⟨j, rfl, _⟩ := h v hv
    simp

theorem reverse_eq (adj : List (List (Option Nat))) (h : ∀ vs ∈ adj, ∀ v ∈ vs, ∃ k, v = some k ∧ k < adj.length) :
    reverse adj = .ok (revOf adj) := by
  have main : ∀ (is : List Nat) (acc : List (List (Option Nat))), acc.length = adj.length →
      is.foldlM (fun rev i => (adj.getD i []).foldlM (pushBack i) rev) acc =
      .ok (acc.mapIdx (fun k ys => ys ++ is.flatMap (fun i => ((adj.getD i []).filter (fun v => v = some k)).map (fun _ => some i)))) := by
    intro is
    induction is with
    | nil =>
      intro acc _
      show Outcome.ok acc = _
      congr 1
      apply List.ext_getElem?
      intro i
      rw [List.getElem?_mapIdx]
      cases acc[i]? <;> simp
    | cons i is ih =>
      intro acc hl
      rw [foldlM_cons', reverse_inner i _ acc (by
        intro v hv
        rw [hl]
        rw [List.getD_eq_getElem?_getD] at hv
        cases ha : adj[i]? with
        | none => rw [ha] at hv; cases hv
        | some vs => rw [ha] at hv; exact h vs (List.mem_of_getElem? ha) v hv)]
      simp only [Outcome.bind]
      rw [ih _ (by rw [List.length_mapIdx]; exact hl)]
      congr 1
      apply List.ext_getElem?
      intro k
      simp only [List.getElem?_mapIdx]
      cases acc[k]? with
      | none => rfl
      | some ys => simp
  unfold reverse
  rw [main _ _ (by rw [List.length_replicate]), mapIdx_replicate]
  rfl

theorem mem_revOf (adj : List (List (Option Nat))) (k i : Nat) (r : List (Option Nat)) (hr : (revOf adj)[k]? = some r) :
    some i ∈ r ↔ ∃ vs, adj[i]? = some vs ∧ some k ∈ vs := by
  have hk : k < adj.length := by
    rcases Nat.lt_or_ge k adj.length with h | h
    · exact h
    · rw [List.getElem?_eq_none (by unfold revOf; simpa using h)] at hr; cases hr
  unfold revOf at hr
  rw [List.getElem?_map, List.getElem?_range hk, Option.map_some, Option.some.injEq] at hr
  subst hr
  rw [List.mem_flatMap]
  constructor
  · rintro ⟨j, hj, hm⟩
    rw [List.mem_map] at hm
    obtain ⟨v, hv, hvi⟩ := hm
    cases hvi
    rw [List.mem_filter] at hv
    have hj' := List.mem_range.1 hj
    rw [List.getD_eq_getElem?_getD, List.getElem?_eq_getElem hj'] at hv
    refine ⟨adj[i], List.getElem?_eq_getElem hj', ?_⟩
    have h2 : v = some k := by simpa using hv.2
    rw [← h2]; exact hv.1
  · rintro ⟨vs, hvs, hkv⟩
    have hi : i < adj.length := by
      rcases Nat.lt_or_ge i adj.length with h | h
      · exact h
      · rw [List.getElem?_eq_none h] at hvs; cases hvs
    refine ⟨i, List.mem_range.2 hi, List.mem_map.2 ⟨some k, List.mem_filter.2 ⟨?_, by simp⟩, rfl⟩⟩
    rw [List.getD_eq_getElem?_getD, hvs]
    exact hkv

theorem revOf_length (adj : List (List (Option Nat))) : (revOf adj).length = adj.length := by unfold revOf; simp

/-! ## Connected sets -/

theorem choose_mem (pick : Nat → Nat) (k : Nat) (l : List Nat) (h : l ≠ []) : choose pick k l ∈ l := by
  have hp : 0 < l.length := by cases l with | nil => exact absurd rfl h | cons a l => simp
  have hi := Nat.mod_lt (pick k) hp
  unfold choose
  rw [List.getD_eq_getElem?_getD, List.getElem?_eq_getElem hi]
  exact List.getElem_mem hi

theorem mem_insertNew (l : List Nat) (x y : Nat) : y ∈ insertNew l x ↔ y ∈ l ∨ y = x := by
  unfold insertNew
  split
  · rename_i h
    have := List.contains_iff_mem.1 h
    constructor
    · intro h; exact .inl h
    · rintro (h | h)
      · exact h
      · subst h; exact this
  · simp

theorem nodup_insertNew {l : List Nat} (h : l.Nodup) (x : Nat) : (insertNew l x).Nodup := by
  unfold insertNew
  split
  · exact h
  · rename_i hc
    rw [List.nodup_append]
    refine ⟨h, List.nodup_singleton x, ?_⟩
    intro a ha b hb
    rw [List.mem_singleton] at hb
    subst hb
    intro e; subst e
    exact hc (List.contains_iff_mem.2 ha)

theorem mem_addAll (cur : Nat) (done ign : List Nat) (x : Nat) : ∀ (outs : List (Option Nat)) (todo : List Nat),
    x ∈ addAll cur done ign todo outs ↔ x ∈ todo ∨ (some x ∈ outs ∧ x ≠ cur ∧ x ∉ done ∧ x ∉ ign) := by
  intro outs
  induction outs with
  | nil => intro todo; simp [addAll]
  | cons v outs ih =>
    intro todo
    show x ∈ addAll cur done ign _ outs ↔ _
    rw [ih]
    cases v with
    | none => simp
    | some n =>
      simp only
      by_cases hc : n = cur ∨ done.contains n ∨ ign.contains n
      · rw [if_pos hc]
        simp only [List.contains_iff_mem] at hc
        constructor
        · rintro (h | ⟨h1, h2⟩)
          · exact .inl h
          · exact .inr ⟨List.mem_cons_of_mem _ h1, h2⟩
        · rintro (h | ⟨h1, h2, h3, h4⟩)
          · exact .inl h
          · rcases List.mem_cons.1 h1 with e | e
            · cases e
              rcases hc with h | h | h
              · exact absurd h h2
              · exact absurd h h3
              · exact absurd h h4
            · exact .inr ⟨e, h2, h3, h4⟩
      · rw [if_neg hc, mem_insertNew]
        simp only [List.contains_iff_mem, not_or] at hc
        constructor
        · rintro ((h | h) | ⟨h1, h2⟩)
          · exact .inl h
          · subst h; exact .inr ⟨List.mem_cons_self, hc.1, hc.2.1, hc.2.2⟩
          · exact .inr ⟨List.mem_cons_of_mem _ h1, h2⟩
        · rintro (h | ⟨h1, h2⟩)
          · exact .inl (.inl h)
          · rcases List.mem_cons.1 h1 with e | e
            · cases e; exact .inl (.inr rfl)
            · exact .inr ⟨e, h2⟩

theorem nodup_addAll (cur : Nat) (done ign : List Nat) : ∀ (outs : List (Option Nat)) (todo : List Nat), todo.Nodup →
    (addAll cur done ign todo outs).Nodup := by
  intro outs
  induction outs with
  | nil => intro todo h; exact h
  | cons v outs ih =>
    intro todo h
    show (addAll cur done ign _ outs).Nodup
    apply ih
    cases v with
    | none => exact h
    | some n =>
      simp only
      split
      · exact h
      · exact nodup_insertNew h n

/-- `m` is named in one of the lists of `c`. -/
def Nb (adj rev : List (List (Option Nat))) (c m : Nat) : Prop := (∃ a, adj[c]? = some a ∧ some m ∈ a) ∨ ∃ r, rev[c]? = some r ∧ some m ∈ r

/-- What can be reached without ignored nodes. -/
inductive Reach (adj rev : List (List (Option Nat))) (ign : List Nat) (s : Nat) : Nat → Prop where
  | refl : Reach adj rev ign s s
  | step {c m : Nat} : Reach adj rev ign s c → Nb adj rev c m → m ∉ ign → Reach adj rev ign s m

section
variable {pick : Nat → Nat} {adj rev : List (List (Option Nat))} {ign : List Nat}

/-- The invariant of the search. -/
structure Search (adj rev : List (List (Option Nat))) (ign : List Nat) (s : Nat) (done todo : List Nat) : Prop where
  nodup : (done ++ todo).Nodup
  here : ∀ x, x ∈ done ∨ x ∈ todo → x < adj.length ∧ x ∉ ign ∧ Reach adj rev ign s x
  closed : ∀ c ∈ done, ∀ m, Nb adj rev c m → m ∉ ign → m ∈ done ∨ m ∈ todo
  start : s ∈ done ∨ s ∈ todo

theorem length_le_of_bounded {l : List Nat} {n : Nat} (h : l.Nodup) (hb : ∀ x ∈ l, x < n) : l.length ≤ n := by
  have : l.Subperm (List.range n) := List.subperm_of_subset h (fun x hx => List.mem_range.2 (hb x hx))
  have := this.length_le
  rwa [List.length_range] at this

theorem explore_spec (hb : ∀ c m, Nb adj rev c m → m < adj.length) (hl : rev.length = adj.length) (s : Nat) :
    ∀ (fuel k : Nat) (done todo : List Nat), Search adj rev ign s done todo → adj.length ≤ fuel + done.length →
      ∃ done' k', explore pick adj rev ign fuel k done todo = .ok (some (done', k')) ∧ Search adj rev ign s done' [] := by
  intro fuel
  induction fuel with
  | zero =>
    intro k done todo hs hf
    cases todo with
    | nil => exact ⟨done, k, by simp [explore], hs⟩
    | cons t l =>
      exfalso
      have h1 := length_le_of_bounded hs.nodup (fun x hx => (hs.here x (List.mem_append.1 hx)).1)
      simp only [List.length_append, List.length_cons] at h1
      omega
  | succ fuel ih =>
    intro k done todo hs hf
    by_cases ht : todo = []
    · subst ht; exact ⟨done, k, by simp [explore], hs⟩
    · have hcm := choose_mem pick k todo ht
      generalize hcur : choose pick k todo = cur at hcm
      obtain ⟨hc1, hc2, hc3⟩ := hs.here cur (.inr hcm)
      have ha : adj[cur]? = some adj[cur] := List.getElem?_eq_getElem hc1
      have hr : rev[cur]? = some (rev[cur]'(by omega)) := List.getElem?_eq_getElem (by omega)
      generalize adj[cur] = a at ha
      generalize (rev[cur]'(by omega)) = r at hr
      have hun : explore pick adj rev ign (fuel + 1) k done todo = explore pick adj rev ign fuel (k + 1) (insertNew done cur)
          ((addAll cur done ign (addAll cur done ign todo a) r).erase cur) := by
        cases todo with
        | nil => exact absurd rfl ht
        | cons t l => rw [explore.eq_3 _ _ _ _ _ _ _ _ (by simp)]; simp only [hcur, ha, hr]
      rw [hun]
      have hnd := List.nodup_append.1 hs.nodup
      have hcd : cur ∉ done := fun h => hnd.2.2 cur h cur hcm rfl
      have hnt := nodup_addAll cur done ign r _ (nodup_addAll cur done ign a todo hnd.2.1)
      have hmem : ∀ x, x ∈ (addAll cur done ign (addAll cur done ign todo a) r).erase cur ↔
          x ≠ cur ∧ (x ∈ todo ∨ (Nb adj rev cur x ∧ x ∉ done ∧ x ∉ ign)) := by
        intro x
        rw [hnt.mem_erase_iff, mem_addAll, mem_addAll]
        constructor
        · rintro ⟨h1, (h | ⟨h, h2, h3, h4⟩) | ⟨h, h2, h3, h4⟩⟩
          · exact ⟨h1, .inl h⟩
          · exact ⟨h1, .inr ⟨.inl ⟨a, ha, h⟩, h3, h4⟩⟩
          · exact ⟨h1, .inr ⟨.inr ⟨r, hr, h⟩, h3, h4⟩⟩
        · rintro ⟨h1, h | ⟨⟨a', ha', h⟩ | ⟨r', hr', h⟩, h3, h4⟩⟩
          · exact ⟨h1, .inl (.inl h)⟩
          · rw [ha] at ha'; cases ha'; exact ⟨h1, .inl (.inr ⟨h, h1, h3, h4⟩)⟩
          · rw [hr] at hr'; cases hr'; exact ⟨h1, .inr ⟨h, h1, h3, h4⟩⟩
      have hlen : (insertNew done cur).length = done.length + 1 := by
        unfold insertNew
        rw [if_neg (fun h => hcd (List.contains_iff_mem.1 h))]
        simp
      refine ih (k + 1) _ _ ⟨?_, ?_, ?_, ?_⟩ (by rw [hlen]; omega)
      · rw [List.nodup_append]
        refine ⟨nodup_insertNew hnd.1 cur, hnt.erase cur, ?_⟩
        intro x hx y hy e
        subst e
        rw [hmem] at hy
        rw [mem_insertNew] at hx
        rcases hx with hx | hx
        · rcases hy.2 with h | ⟨_, h, _⟩
          · exact hnd.2.2 x hx x h rfl
          · exact h hx
        · exact hy.1 hx
      · intro x hx
        rw [mem_insertNew, hmem] at hx
        rcases hx with (h | h) | ⟨h1, h | ⟨h, h2, h3⟩⟩
        · exact hs.here x (.inl h)
        · subst h; exact ⟨hc1, hc2, hc3⟩
        · exact hs.here x (.inr h)
        · exact ⟨hb cur x h, h3, .step hc3 h h3⟩
      · intro c hc m hm hmi
        rw [mem_insertNew, hmem]
        rw [mem_insertNew] at hc
        by_cases hmc : m = cur
        · exact .inl (.inr hmc)
        · by_cases hmd : m ∈ done
          · exact .inl (.inl hmd)
          · right
            refine ⟨hmc, ?_⟩
            rcases hc with hc | hc
            · rcases hs.closed c hc m hm hmi with h | h
              · exact absurd h hmd
              · exact .inl h
            · subst hc; exact .inr ⟨hm, hmd, hmi⟩
      · rw [mem_insertNew, hmem]
        by_cases he : s = cur
        · exact .inl (.inr he)
        · rcases hs.start with h | h
          · exact .inl (.inl h)
          · exact .inr ⟨he, .inl h⟩

theorem search_reach {s : Nat} {done : List Nat} (h : Search adj rev ign s done []) (x : Nat) : x ∈ done ↔ Reach adj rev ign s x := by
  constructor
  · intro hx; exact (h.here x (.inl hx)).2.2
  · intro hr
    induction hr with
    | refl => rcases h.start with h | h
              · exact h
              · cases h
    | step _ hn hi ih =>
      rcases h.closed _ ih _ hn hi with h | h
      · exact h
      · cases h

theorem Reach.trans {s c m : Nat} (h1 : Reach adj rev ign s c) (h2 : Reach adj rev ign c m) : Reach adj rev ign s m := by
  induction h2 with
  | refl => exact h1
  | step _ hn hi ih => exact .step ih hn hi

theorem Reach.symm (hsym : ∀ c m, Nb adj rev c m → Nb adj rev m c) {s m : Nat} (hs : s ∉ ign) (h : Reach adj rev ign s m) : Reach adj rev ign m s := by
  induction h with
  | refl => exact .refl
  | step hc hn hi ih =>
    rename_i c m
    have hci : c ∉ ign := by
      cases hc with
      | refl => exact hs
      | step _ _ h => exact h
    exact Reach.trans (.step .refl (hsym _ _ hn) hci) ih

/-- The parts of what remains. -/
theorem divideLoop_spec (hb : ∀ c m, Nb adj rev c m → m < adj.length) (hl : rev.length = adj.length) (hsym : ∀ c m, Nb adj rev c m → Nb adj rev m c)
    (fuel : Nat) (hf : adj.length ≤ fuel) : ∀ (rounds k : Nat) (remaining : List Nat), remaining.length ≤ rounds → remaining.Nodup →
      (∀ x ∈ remaining, x < adj.length ∧ x ∉ ign) → (∀ x ∈ remaining, ∀ y, Reach adj rev ign x y → y ∈ remaining) →
      ∃ ss, divideLoop pick adj rev ign fuel rounds k remaining = .ok (some ss) ∧ ss.flatten.Perm remaining ∧
        ∀ s ∈ ss, s ≠ [] ∧ s.Pairwise (· < ·) ∧ ∀ i ∈ s, ∀ j, j ∈ s ↔ Reach adj rev ign i j := by
  intro rounds
  induction rounds with
  | zero =>
    intro k remaining hr _ _ _
    have : remaining = [] := List.eq_nil_of_length_eq_zero (by omega)
    subst this
    exact ⟨[], by simp [divideLoop], .refl _, fun s hs => by cases hs⟩
  | succ rounds ih =>
    intro k remaining hr hnd hrng hcl
    by_cases hne : remaining = []
    · subst hne
      exact ⟨[], by simp [divideLoop], .refl _, fun s hs => by cases hs⟩
    · have hun : divideLoop pick adj rev ign fuel (rounds + 1) k remaining = (connectedSet pick adj rev ign fuel k remaining).bind (fun r => match r with
          | some (s, rest, k') => (divideLoop pick adj rev ign fuel rounds k' rest).bind (fun q => .ok (q.map (s :: ·)))
          | none => .ok none) := by
        cases remaining with
        | nil => exact absurd rfl hne
        | cons t l =>
          rw [divideLoop.eq_3 _ _ _ _ _ _ _ _ (by simp)]
          cases connectedSet pick adj rev ign fuel k (t :: l) with
          | ok r => cases r <;> rfl
          | throw e => rfl
          | ub => rfl
      have hcl' : remaining.filter (fun x => !ign.contains x) = remaining := by
        rw [List.filter_eq_self]
        intro x hx
        have := (hrng x hx).2
        simp [this]
      have hst := choose_mem pick k remaining hne
      generalize hs0 : choose pick k remaining = s0 at hst
      obtain ⟨h1, h2⟩ := hrng s0 hst
      obtain ⟨done, k', he, hsr⟩ := explore_spec (pick := pick) (ign := ign) hb hl s0 fuel (k + 1) [] [s0]
        ⟨by simp, by intro x hx; simp only [List.not_mem_nil, List.mem_singleton, false_or] at hx; subst hx; exact ⟨h1, h2, .refl⟩,
          (by intro c hc; exact absurd hc (List.not_mem_nil)), by simp⟩ (by simp; exact hf)
      have hcs : connectedSet pick adj rev ign fuel k remaining = .ok (some (sorted done, remaining.filter (fun x => !done.contains x), k')) := by
        unfold connectedSet
        rw [hcl']
        cases remaining with
        | nil => exact absurd rfl hne
        | cons t l => simp only [hs0, he, Outcome.bind]
      have hdone := search_reach hsr
      have hdn : done.Nodup := by have := hsr.nodup; rwa [List.append_nil] at this
      have hsub : ∀ x ∈ done, x ∈ remaining := fun x hx => hcl s0 hst x ((hdone x).1 hx)
      have hmemr : ∀ x, x ∈ remaining.filter (fun x => !done.contains x) ↔ x ∈ remaining ∧ x ∉ done := by intro x; simp
      have hperm : (done ++ remaining.filter (fun x => !done.contains x)).Perm remaining := by
        rw [List.perm_ext_iff_of_nodup ?_ hnd]
        · intro x
          rw [List.mem_append, hmemr]
          by_cases hx : x ∈ done
          · simp [hx, hsub x hx]
          · simp [hx]
        · rw [List.nodup_append]
          refine ⟨hdn, hnd.filter _, ?_⟩
          intro a ha b hb' e
          subst e
          exact ((hmemr a).1 hb').2 ha
      have hs0d : s0 ∈ done := (hdone s0).2 .refl
      have hlen : (remaining.filter (fun x => !done.contains x)).length ≤ rounds := by
        have := hperm.length_eq
        rw [List.length_append] at this
        have : 0 < done.length := List.length_pos_of_mem hs0d
        omega
      obtain ⟨ss, q1, q2, q3⟩ := ih k' _ hlen (hnd.filter _) (fun x hx => hrng x ((hmemr x).1 hx).1) (by
        intro x hx y hxy
        rw [hmemr] at hx ⊢
        refine ⟨hcl x hx.1 y hxy, fun hy => hx.2 ?_⟩
        rw [hdone] at hy ⊢
        exact hy.trans (hxy.symm hsym (hrng x hx.1).2))
      have hsp : (sorted done).Perm done := sortBy_perm _ done
      refine ⟨sorted done :: ss, ?_, ?_, ?_⟩
      · rw [hun, hcs]
        simp only [Outcome.bind, q1, Option.map_some]
      · rw [List.flatten_cons]
        exact (List.Perm.append hsp q2).trans hperm
      · intro s hs
        rcases List.mem_cons.1 hs with e | e
        · subst e
          refine ⟨?_, ?_, ?_⟩
          · intro h0
            have := hsp.length_eq
            rw [h0] at this
            have h3 : 0 < done.length := List.length_pos_of_mem hs0d
            simp only [List.length_nil] at this
            omega
          · have hle : (sorted done).Pairwise (fun a b => decide (a ≤ b) = true) :=
              sortBy_sorted _ (fun a b => by simp only [decide_eq_true_eq]; omega)
                (fun a b c h1 h2 => by simp only [decide_eq_true_eq] at *; omega) done
            have hnd' : (sorted done).Pairwise (· ≠ ·) := hsp.nodup_iff.2 hdn
            refine (hle.and hnd').imp ?_
            intro a b h
            have := of_decide_eq_true h.1
            have := h.2
            omega
          · intro i hi j
            rw [hsp.mem_iff] at hi ⊢
            have hi' := (hdone i).1 hi
            rw [hdone]
            constructor
            · intro h; exact (hi'.symm hsym h2).trans h
            · intro h; exact hi'.trans h
        · exact q3 s e

end

/-! ## Networks -/

section
open Knp.Spec
variable {P J : Type}

theorem indexOf_some {nodes : List Node} {u : UID} {i : Nat} (h : indexOf nodes u = some i) : nodes[i]?.map (·.uid) = some u := by
  unfold indexOf at h
  have := List.mem_of_getLast? h
  rw [List.mem_filter] at this
  exact eq_of_beq this.2

theorem indexOf_lt {nodes : List Node} {u : UID} {i : Nat} (h : indexOf nodes u = some i) : i < nodes.length := by
  have := indexOf_some h
  rcases Nat.lt_or_ge i nodes.length with h' | h'
  · exact h'
  · rw [List.getElem?_eq_none h'] at this; cases this

theorem indexOf_none {nodes : List Node} {u : UID} : indexOf nodes u = none ↔ u ∉ nodes.map (·.uid) := by
  unfold indexOf
  rw [List.getLast?_eq_none_iff, List.filter_eq_nil_iff]
  constructor
  · intro h hm
    obtain ⟨x, hx, rfl⟩ := List.mem_map.1 hm
    obtain ⟨i, hi⟩ := List.getElem?_of_mem hx
    have hlt : i < nodes.length := by
      rcases Nat.lt_or_ge i nodes.length with h' | h'
      · exact h'
      · rw [List.getElem?_eq_none h'] at hi; cases hi
    apply h i (List.mem_range.2 hlt)
    rw [hi]; simp
  · intro h i hi hb
    apply h
    have := eq_of_beq hb
    cases hx : nodes[i]? with
    | none => rw [hx] at this; cases this
    | some x =>
      rw [hx] at this
      simp only [Option.map_some, Option.some.injEq] at this
      exact List.mem_map.2 ⟨x, List.mem_of_getElem? hx, this⟩

theorem unique_index {nodes : List Node} (hn : (nodes.map (·.uid)).Nodup) {u : UID} {i j : Nat} (hi : nodes[i]?.map (·.uid) = some u)
    (hj : nodes[j]?.map (·.uid) = some u) : i = j := by
  rw [← List.getElem?_map] at hi hj
  have h1 : i < (nodes.map (·.uid)).length := by
    rcases Nat.lt_or_ge i (nodes.map (·.uid)).length with h' | h'
    · exact h'
    · rw [List.getElem?_eq_none h'] at hi; cases hi
  exact (List.getElem?_inj h1 hn).1 (hi.trans hj.symm)

theorem indexOf_iff {nodes : List Node} (hn : (nodes.map (·.uid)).Nodup) {u : UID} {i : Nat} :
    indexOf nodes u = some i ↔ nodes[i]?.map (·.uid) = some u := by
  constructor
  · exact indexOf_some
  · intro h
    cases hx : indexOf nodes u with
    | none =>
      exfalso
      rw [indexOf_none] at hx
      apply hx
      rw [← List.getElem?_map] at h
      exact List.mem_of_getElem? h
    | some j => rw [unique_index hn h (indexOf_some hx)]

theorem graph_uids (name : P → String) (n : Network P J) : ((graphOf name n).nodes.map (·.uid)) = n.populations.map (·.uid) := by
  unfold graphOf; simp [Function.comp_def]

theorem graph_length (name : P → String) (n : Network P J) : (graphOf name n).nodes.length = n.populations.length := by
  unfold graphOf; simp

theorem popAt_iff (name : P → String) (n : Network P J) (i : Nat) (u : UID) :
    PopAt n i u ↔ (graphOf name n).nodes[i]?.map (·.uid) = some u := by
  rw [← List.getElem?_map, graph_uids, List.getElem?_map]
  unfold PopAt
  cases n.populations[i]? with
  | none => simp
  | some p => simp

theorem graph_edges (name : P → String) (n : Network P J) :
    (graphOf name n).edges = n.projections.map (fun p => ⟨p.uid, indexOf (graphOf name n).nodes p.pre, indexOf (graphOf name n).nodes p.post⟩) := rfl

/-- The adjacency list of a network can always be built. -/
theorem graph_adj (name : P → String) (n : Network P J) : buildAdj (graphOf name n) = .ok (adjOf (graphOf name n)) := by
  apply buildAdj_eq
  intro e he i hi
  rw [graph_edges] at he
  obtain ⟨p, _, rfl⟩ := List.mem_map.1 he
  exact indexOf_lt hi

/-- The list of a population. -/
theorem graph_row (name : P → String) (n : Network P J) (i : Nat) (hi : i < n.populations.length) :
    (adjOf (graphOf name n))[i]? = some ((n.projections.filter (fun p => indexOf (graphOf name n).nodes p.pre = some i)).map
      (fun p => indexOf (graphOf name n).nodes p.post)) := by
  rw [adjOf_get _ _ (by rw [graph_length]; omega), graph_edges, List.filter_map, List.map_map]
  congr 2
  · apply List.filter_congr
    intro p _
    simp only [Function.comp, graph_length]
    cases indexOf (graphOf name n).nodes p.pre with
    | none => simp; omega
    | some k => simp

/-- The list of the world outside. -/
theorem graph_outside (name : P → String) (n : Network P J) :
    (adjOf (graphOf name n))[n.populations.length]? = some ((n.projections.filter (fun p => indexOf (graphOf name n).nodes p.pre = none)).map
      (fun p => indexOf (graphOf name n).nodes p.post)) := by
  rw [adjOf_get _ _ (by rw [graph_length]), graph_edges, List.filter_map, List.map_map]
  congr 2
  · apply List.filter_congr
    intro p _
    simp only [Function.comp, graph_length]
    cases hx : indexOf (graphOf name n).nodes p.pre with
    | none => simp
    | some k => have := indexOf_lt hx; rw [graph_length] at this; simp; omega

theorem graph_leads (name : P → String) (n : Network P J) (hn : (n.populations.map (·.uid)).Nodup) (i j : Nat) :
    Leads n i j ↔ i < n.populations.length ∧ ∃ a, (adjOf (graphOf name n))[i]? = some a ∧ some j ∈ a := by
  have hn' : ((graphOf name n).nodes.map (·.uid)).Nodup := by rw [graph_uids]; exact hn
  unfold Leads
  simp only [popAt_iff name, ← indexOf_iff hn']
  constructor
  · rintro ⟨p, hp, h1, h2⟩
    have hlt := indexOf_lt h1
    rw [graph_length] at hlt
    refine ⟨hlt, _, graph_row name n i hlt, ?_⟩
    exact List.mem_map.2 ⟨p, List.mem_filter.2 ⟨hp, by simpa using h1⟩, h2⟩
  · rintro ⟨hlt, a, ha, hj⟩
    rw [graph_row name n i hlt] at ha
    cases ha
    obtain ⟨p, hp, h2⟩ := List.mem_map.1 hj
    rw [List.mem_filter] at hp
    exact ⟨p, hp.1, by simpa using hp.2, h2⟩

theorem graph_reach (name : P → String) (n : Network P J) (hn : (n.populations.map (·.uid)).Nodup) {rev : List (List (Option Nat))}
    (hrev : rev = revOf (adjOf (graphOf name n))) (c m : Nat) (hc : c < n.populations.length) (hm : m < n.populations.length) :
    Nb (adjOf (graphOf name n)) rev c m ↔ Leads n c m ∨ Leads n m c := by
  subst hrev
  rw [graph_leads name n hn, graph_leads name n hn]
  unfold Nb
  constructor
  · rintro (h | ⟨r, hr, h⟩)
    · exact .inl ⟨hc, h⟩
    · exact .inr ⟨hm, (mem_revOf _ _ _ _ hr).1 h⟩
  · rintro (⟨_, h⟩ | ⟨_, h⟩)
    · exact .inl h
    · right
      have hlt : c < (revOf (adjOf (graphOf name n))).length := by rw [revOf_length, adjOf_length, graph_length]; omega
      exact ⟨_, List.getElem?_eq_getElem hlt, (mem_revOf _ _ _ _ (List.getElem?_eq_getElem hlt)).2 h⟩

theorem foldlM_ub {α β : Type} (f : β → α → Outcome β) (hf : ∀ b a, f b a = .ub ∨ ∃ b', f b a = .ok b') :
    ∀ (l : List α) (b : β), (∃ a ∈ l, ∀ b, f b a = .ub) → l.foldlM f b = .ub := by
  intro l
  induction l with
  | nil => rintro b ⟨a, ha, _⟩; cases ha
  | cons x l ih =>
    rintro b ⟨a, ha, hu⟩
    rw [foldlM_cons']
    rcases hf b x with h | ⟨b', h⟩
    · rw [h]; rfl
    · rw [h]
      simp only [Outcome.bind]
      rcases List.mem_cons.1 ha with e | e
      · subst e; rw [hu b] at h; cases h
      · exact ih b' ⟨a, e, hu⟩

theorem foldlM_total {α β : Type} (f : β → α → Outcome β) (hf : ∀ b a, f b a = .ub ∨ ∃ b', f b a = .ok b') :
    ∀ (l : List α) (b : β), l.foldlM f b = .ub ∨ ∃ b', l.foldlM f b = .ok b' := by
  intro l
  induction l with
  | nil => intro b; exact .inr ⟨b, rfl⟩
  | cons x l ih =>
    intro b
    rw [foldlM_cons']
    rcases hf b x with h | ⟨b', h⟩
    · rw [h]; exact .inl rfl
    · rw [h]; exact ih b'

theorem pushBack_total (i : Nat) (rev : List (List (Option Nat))) (v : Option Nat) : pushBack i rev v = .ub ∨ ∃ b', pushBack i rev v = .ok b' := by
  cases v with
  | none => exact .inl rfl
  | some k =>
    show pushAt rev k (some i) = .ub ∨ ∃ b', pushAt rev k (some i) = .ok b'
    unfold pushAt
    cases rev[k]? with
    | none => exact .inl rfl
    | some ys => exact .inr ⟨_, rfl⟩

theorem reverse_ub (adj : List (List (Option Nat))) (i : Nat) (vs : List (Option Nat)) (hi : adj[i]? = some vs) (hv : none ∈ vs) :
    reverse adj = .ub := by
  have hlt : i < adj.length := by
    rcases Nat.lt_or_ge i adj.length with h' | h'
    · exact h'
    · rw [List.getElem?_eq_none h'] at hi; cases hi
  unfold reverse
  refine foldlM_ub _ ?_ _ _ ⟨i, List.mem_range.2 hlt, ?_⟩
  · intro rev j; exact foldlM_total _ (pushBack_total j) _ _
  · intro rev
    have : adj.getD i [] = vs := by rw [List.getD_eq_getElem?_getD, hi]; rfl
    rw [this]
    exact foldlM_ub _ (pushBack_total i) _ _ ⟨none, hv, fun _ => rfl⟩

end

end Knp.Vis
