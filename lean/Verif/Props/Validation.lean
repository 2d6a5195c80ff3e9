import Verif.Model.Validation
import Mathlib.Data.List.Nodup

/-! # C40–C41: network validation -/

namespace Knp.Props
open Knp Knp.Validation

/-! ## C40 -/

/-- C40, specification: a population (by UID) is connected if a projection names it as one of its ends. The
empty UID names nothing. -/
def PopConnected {P J : Type} (n : Network P J) (u : UID) : Prop :=
  u ≠ 0 ∧ ∃ j ∈ n.projections, j.pre = u ∨ j.post = u

/-- C40, specification: both ends of a projection are populations of the network. -/
def ProjConnected {P J : Type} (n : Network P J) (j : ProjEntity J) : Prop :=
  (∃ p ∈ n.populations, p.uid = j.pre) ∧ (∃ p ∈ n.populations, p.uid = j.post)

private def keyVal (info : Info) (u : UID) : Option (Bool × Bool) := (info.find? (fun e => e.1 == u)).map (·.2)

private theorem keyVal_upd (key u : UID) (f : Bool × Bool → Bool × Bool) (info : Info) :
    keyVal (upd key f info) u =
      if u = key then some (f ((keyVal info key).getD (false, false))) else keyVal info u := by
  induction info with
  | nil =>
    unfold upd keyVal
    by_cases h : u = key
    · simp [h]
    · have : ¬ key = u := fun e => h e.symm
      simp [h, this]
  | cons e l ih =>
    obtain ⟨k, v⟩ := e
    unfold upd
    by_cases h1 : k = key
    · rw [if_pos h1]
      subst h1
      by_cases h2 : u = k
      · subst h2; simp [keyVal]
      · have : ¬ k = u := fun e => h2 e.symm
        simp [keyVal, h2, this]
    · rw [if_neg h1]
      by_cases h2 : u = key
      · subst h2
        simp only [keyVal, List.find?_cons, beq_false_of_ne h1] at ih ⊢
        simpa using ih
      · by_cases h3 : k = u
        · subst h3; simp [keyVal, h1]
        · simp only [keyVal, List.find?_cons, beq_false_of_ne h3, beq_false_of_ne h1] at ih ⊢
          simpa [h2] using ih

private theorem keys_upd (key : UID) (f : Bool × Bool → Bool × Bool) (info : Info)
    (h : (info.map (·.1)).Nodup) : ((upd key f info).map (·.1)).Nodup ∧
      ∀ u, u ∈ (upd key f info).map (·.1) ↔ u = key ∨ u ∈ info.map (·.1) := by
  induction info with
  | nil => exact ⟨by simp [upd], by simp [upd]⟩
  | cons e l ih =>
    obtain ⟨k, v⟩ := e
    have hn := List.nodup_cons.1 h
    unfold upd
    by_cases h1 : k = key
    · rw [if_pos h1]
      refine ⟨h, fun u => ?_⟩
      subst h1; simp
    · rw [if_neg h1]
      obtain ⟨i1, i2⟩ := ih hn.2
      constructor
      · refine List.nodup_cons.2 ⟨?_, i1⟩
        intro hm
        rcases (i2 k).1 hm with e | e
        · exact h1 e
        · exact hn.1 e
      · intro u
        rw [List.map_cons, List.mem_cons, i2, List.map_cons, List.mem_cons]
        tauto

/-- Membership with a value in a list with distinct keys. -/
private theorem mem_iff_keyVal (info : Info) (h : (info.map (·.1)).Nodup) (u : UID) (v : Bool × Bool) :
    (u, v) ∈ info ↔ keyVal info u = some v := by
  induction info with
  | nil => simp [keyVal]
  | cons e l ih =>
    obtain ⟨k, w⟩ := e
    have hn := List.nodup_cons.1 h
    by_cases h1 : k = u
    · subst h1
      simp only [List.mem_cons, Prod.mk.injEq, true_and, keyVal, List.find?_cons, beq_self_eq_true,
        Option.map_some, Option.some.injEq]
      constructor
      · rintro (e | e)
        · exact e.symm
        · exact absurd (List.mem_map_of_mem (f := Prod.fst) e) hn.1
      · intro e; exact Or.inl e.symm
    · have h2 : ¬ u = k := fun e => h1 e.symm
      have := ih hn.2
      simp only [keyVal, List.find?_cons, beq_false_of_ne h1, List.mem_cons, Prod.mk.injEq, h2, false_and,
        false_or] at this ⊢
      exact this

private theorem fill_spec {P : Type} (pops : List (PopEntity P)) (info : Info)
    (h : (info.map (·.1)).Nodup) (h0 : ∀ u v, keyVal info u = some v → v = (false, false)) :
    let r := pops.foldl (fun info p => upd p.uid (fun _ => (false, false)) info) info
    (r.map (·.1)).Nodup ∧ (∀ u, u ∈ r.map (·.1) ↔ u ∈ info.map (·.1) ∨ ∃ p ∈ pops, p.uid = u) ∧
      ∀ u v, keyVal r u = some v → v = (false, false) := by
  induction pops generalizing info with
  | nil => exact ⟨h, by simp, h0⟩
  | cons p l ih =>
    obtain ⟨k1, k2⟩ := keys_upd p.uid (fun _ => (false, false)) info h
    obtain ⟨a, b, c⟩ := ih _ k1 (by
      intro u v hv
      rw [keyVal_upd] at hv
      by_cases e : u = p.uid
      · rw [if_pos e] at hv; exact (Option.some.inj hv).symm
      · rw [if_neg e] at hv; exact h0 u v hv)
    refine ⟨a, fun u => ?_, c⟩
    rw [List.foldl_cons]
    refine (b u).trans ?_
    rw [k2]
    simp only [List.mem_cons, exists_eq_or_imp]
    constructor
    · rintro ((e | e) | e)
      · exact Or.inr (Or.inl e.symm)
      · exact Or.inl e
      · exact Or.inr (Or.inr e)
    · rintro (e | e | e)
      · exact Or.inl (Or.inr e)
      · exact Or.inl (Or.inl e.symm)
      · exact Or.inr e

private def notConn (v : Bool × Bool) : Bool := !v.1 && !v.2

/-- One projection: a key is unconnected afterwards exactly if it was there (or, never, is created) and the
projection does not name it. -/
private theorem visit_spec {J : Type} (s : Info × List ConnIssue) (j : ProjEntity J)
    (h : (s.1.map (·.1)).Nodup) :
    ((visitProjection s j).1.map (·.1)).Nodup ∧
    (∀ u, (∃ v, (u, v) ∈ (visitProjection s j).1 ∧ notConn v = true) ↔
      (∃ v, (u, v) ∈ s.1 ∧ notConn v = true) ∧ ¬ (u ≠ 0 ∧ (j.pre = u ∨ j.post = u))) ∧
    (visitProjection s j).2 = s.2 ++ (if j.pre = 0 ∧ j.post = 0 then [.projectionNotConnected j.uid] else []) := by
  have step : ∀ (info : Info), (info.map (·.1)).Nodup → ∀ (key : UID) (f : Bool × Bool → Bool × Bool),
      (∀ v, notConn (f v) = false) →
      let r := if (key != 0) = true then upd key f info else info
      (r.map (·.1)).Nodup ∧ (∀ u, (∃ v, (u, v) ∈ r ∧ notConn v = true) ↔
        (∃ v, (u, v) ∈ info ∧ notConn v = true) ∧ ¬ (u ≠ 0 ∧ key = u)) := by
    intro info hi key f hf
    by_cases hk : key = 0
    · subst hk
      refine ⟨hi, fun u => ?_⟩
      simp only [bne_self_eq_false, Bool.false_eq_true, if_false]
      constructor
      · intro hv; exact ⟨hv, fun ⟨a, b⟩ => a b.symm⟩
      · exact fun hv => hv.1
    · have hb : (key != 0) = true := by simpa using hk
      simp only [hb, if_true]
      obtain ⟨k1, _⟩ := keys_upd key f info hi
      refine ⟨k1, fun u => ?_⟩
      simp only [mem_iff_keyVal _ k1, mem_iff_keyVal _ hi, keyVal_upd]
      by_cases hu : u = key
      · subst hu
        simp only [if_true]
        constructor
        · rintro ⟨v, hv, hn⟩
          rw [← Option.some.inj hv, hf] at hn
          exact absurd hn (by simp)
        · rintro ⟨_, hn⟩
          exact absurd ⟨hk, trivial⟩ hn
      · simp only [if_neg hu]
        constructor
        · intro hv; exact ⟨hv, fun ⟨_, b⟩ => hu b.symm⟩
        · exact fun hv => hv.1
  obtain ⟨a1, a2⟩ := step s.1 h j.pre (fun v => (v.1, true)) (by intro v; simp [notConn])
  obtain ⟨b1, b2⟩ := step _ a1 j.post (fun v => (true, v.2)) (by intro v; simp [notConn])
  refine ⟨b1, fun u => ?_, ?_⟩
  · refine (b2 u).trans ?_
    rw [a2]
    tauto
  · unfold visitProjection
    simp only
    by_cases h1 : j.pre = 0 <;> by_cases h2 : j.post = 0 <;> simp [h1, h2]

private theorem visits_spec {J : Type} (js : List (ProjEntity J)) (s : Info × List ConnIssue)
    (h : (s.1.map (·.1)).Nodup) :
    ((js.foldl visitProjection s).1.map (·.1)).Nodup ∧
    (∀ u, (∃ v, (u, v) ∈ (js.foldl visitProjection s).1 ∧ notConn v = true) ↔
      (∃ v, (u, v) ∈ s.1 ∧ notConn v = true) ∧ ¬ (u ≠ 0 ∧ ∃ j ∈ js, j.pre = u ∨ j.post = u)) ∧
    (js.foldl visitProjection s).2 = s.2 ++
      (js.filter (fun j => j.pre == 0 && j.post == 0)).map (fun j => .projectionNotConnected j.uid) := by
  induction js generalizing s with
  | nil => exact ⟨h, by simp, by simp⟩
  | cons j js ih =>
    obtain ⟨v1, v2, v3⟩ := visit_spec s j h
    obtain ⟨i1, i2, i3⟩ := ih _ v1
    refine ⟨i1, fun u => ?_, ?_⟩
    · rw [List.foldl_cons, i2, v2]
      simp only [List.mem_cons, exists_eq_or_imp]
      constructor
      · rintro ⟨⟨a, b⟩, c⟩
        exact ⟨a, fun ⟨d, e⟩ => e.elim (fun e => b ⟨d, e⟩) (fun e => c ⟨d, e⟩)⟩
      · rintro ⟨a, b⟩
        exact ⟨⟨a, fun ⟨d, e⟩ => b ⟨d, Or.inl e⟩⟩, fun ⟨d, e⟩ => b ⟨d, Or.inr e⟩⟩
    · rw [List.foldl_cons, i3, v3]
      by_cases h1 : j.pre = 0 <;> by_cases h2 : j.post = 0 <;> simp [h1, h2]

private theorem mem_pop_issue (l : Info) (u : UID) :
    ConnIssue.populationNotConnected u ∈ l.filterMap
      (fun e => if !e.2.1 && !e.2.2 then some (.populationNotConnected e.1) else none) ↔
    ∃ v, (u, v) ∈ l ∧ notConn v = true := by
  rw [List.mem_filterMap]
  constructor
  · rintro ⟨⟨k, v⟩, hm, he⟩
    by_cases hc : (!v.1 && !v.2) = true
    · simp only [hc, if_true, Option.some.injEq, ConnIssue.populationNotConnected.injEq] at he
      subst he
      exact ⟨v, hm, hc⟩
    · simp only [if_neg hc] at he
      cases he
  · rintro ⟨v, hm, hc⟩
    exact ⟨(u, v), hm, by simp only [show (!v.1 && !v.2) = true from hc, if_true]⟩

/-- C40, populations: on every network the validator reports a population exactly if it belongs to the
network and no projection is attached to it – and each such population once. -/
theorem C40_populations {P J : Type} (n : Network P J) (u : UID) :
    (.populationNotConnected u ∈ connectivity n ↔
      (∃ p ∈ n.populations, p.uid = u) ∧ ¬ PopConnected n u) ∧
    (connectivity n).count (.populationNotConnected u) ≤ 1 := by
  obtain ⟨f1, f2, f3⟩ := fill_spec n.populations [] (by simp) (by simp [keyVal])
  obtain ⟨v1, v2, v3⟩ := visits_spec n.projections (fillPopulations n.populations, []) f1
  have hcount : (connectivity n).count (.populationNotConnected u) =
      ((n.projections.foldl visitProjection (fillPopulations n.populations, [])).1.filterMap
        (fun e => if !e.2.1 && !e.2.2 then some (ConnIssue.populationNotConnected e.1) else none)).count
          (.populationNotConnected u) := by
    unfold connectivity
    simp only
    rw [List.count_append, v3, List.nil_append]
    have : ((n.projections.filter (fun j => j.pre == 0 && j.post == 0)).map
      (fun j => ConnIssue.projectionNotConnected j.uid)).count (.populationNotConnected u) = 0 := by
      apply List.count_eq_zero.2
      intro hm
      obtain ⟨j, _, hj⟩ := List.mem_map.1 hm
      cases hj
    rw [this, Nat.zero_add]
  have hnd : ∀ l : Info, (l.map (·.1)).Nodup → (l.filterMap
      (fun e => if !e.2.1 && !e.2.2 then some (ConnIssue.populationNotConnected e.1) else none)).Nodup := by
    intro l hl
    induction l with
    | nil => simp
    | cons e l ih =>
      have hn := List.nodup_cons.1 hl
      rw [List.filterMap_cons]
      split
      · exact ih hn.2
      · rename_i b hb
        refine List.nodup_cons.2 ⟨?_, ih hn.2⟩
        by_cases hc : (!e.2.1 && !e.2.2) = true
        · rw [if_pos hc] at hb
          rw [← Option.some.inj hb, mem_pop_issue]
          rintro ⟨v, hv, _⟩
          exact hn.1 (List.mem_map.2 ⟨_, hv, rfl⟩)
        · rw [if_neg hc] at hb; cases hb
  have key := (mem_pop_issue (n.projections.foldl visitProjection (fillPopulations n.populations, [])).1 u).trans
    (v2 u)
  have hfill : (∃ v, (u, v) ∈ fillPopulations n.populations ∧ notConn v = true) ↔
      ∃ p ∈ n.populations, p.uid = u := by
    have hf := f2 u
    simp only [List.map_nil, List.not_mem_nil, false_or] at hf
    rw [← hf]
    constructor
    · rintro ⟨v, hv, _⟩; exact List.mem_map_of_mem (f := Prod.fst) hv
    · intro hm
      obtain ⟨⟨k, v⟩, hv, rfl⟩ := List.mem_map.1 hm
      refine ⟨v, hv, ?_⟩
      rw [f3 k v ((mem_iff_keyVal _ f1 k v).1 hv)]
      rfl
  rw [hfill] at key
  have key' : .populationNotConnected u ∈ connectivity n ↔
      (∃ p ∈ n.populations, p.uid = u) ∧ ¬ PopConnected n u := by
    rw [← List.one_le_count_iff, hcount, List.one_le_count_iff]
    exact key
  refine ⟨key', ?_⟩
  rw [hcount]
  exact List.nodup_iff_count_le_one.1 (hnd _ v1) _

/-- Populations 1, 2, 3 and a projection 1 → 2: population 3 is reported. -/
example : connectivity (P := Unit) (J := Unit)
    { populations := [⟨1, 0, ()⟩, ⟨2, 0, ()⟩, ⟨3, 0, ()⟩], projections := [⟨9, 1, 2, 0, ()⟩] } =
    [.populationNotConnected 3] := by decide

/-- C40, projections, full statement: a projection is reported exactly if one of its ends is not a
population of the network. -/
def C40_projections_statement : Prop :=
  ∀ (n : Network Unit Unit) (j : ProjEntity Unit), j ∈ n.projections → (n.projections.map (·.uid)).Nodup →
    (ConnIssue.projectionNotConnected j.uid ∈ connectivity n ↔ ¬ ProjConnected n j)

/-- C40: the projection half is false – a projection to a population that does not exist is not reported
(nor is one with a single missing end). -/
theorem C40_projections_refuted : ¬ C40_projections_statement := by
  intro h
  have := h { populations := [⟨1, 0, ()⟩], projections := [⟨9, 1, 7, 0, ()⟩] } ⟨9, 1, 7, 0, ()⟩
    (by simp) (by simp)
  have h2 : ¬ ProjConnected (P := Unit) (J := Unit)
      { populations := [⟨1, 0, ()⟩], projections := [⟨9, 1, 7, 0, ()⟩] } ⟨9, 1, 7, 0, ()⟩ := by
    rintro ⟨_, p, hp, he⟩
    simp at hp
    rw [hp] at he
    exact absurd he (by decide)
  exact absurd (this.2 h2) (by decide)

/-- C40, projections, what holds: reported (in the order of the projections, first in the report) are exactly
the projections both of whose population UIDs are empty. -/
theorem C40_projections_partial {P J : Type} (n : Network P J) (u : UID) :
    (connectivity n).filter (fun i => match i with | .projectionNotConnected _ => true | _ => false) =
      (n.projections.filter (fun j => j.pre == 0 && j.post == 0)).map (fun j => .projectionNotConnected j.uid) ∧
    (ConnIssue.projectionNotConnected u ∈ connectivity n ↔
      ∃ j ∈ n.projections, j.uid = u ∧ j.pre = 0 ∧ j.post = 0) := by
  obtain ⟨f1, f2, f3⟩ := fill_spec n.populations [] (by simp) (by simp [keyVal])
  obtain ⟨v1, v2, v3⟩ := visits_spec n.projections (fillPopulations n.populations, []) f1
  constructor
  · unfold connectivity
    simp only
    rw [v3, List.nil_append, List.filter_append]
    have h1 : ((n.projections.filter (fun j => j.pre == 0 && j.post == 0)).map
        (fun j => ConnIssue.projectionNotConnected j.uid)).filter
          (fun i => match i with | .projectionNotConnected _ => true | _ => false) =
        (n.projections.filter (fun j => j.pre == 0 && j.post == 0)).map
        (fun j => ConnIssue.projectionNotConnected j.uid) := by
      apply List.filter_eq_self.2
      intro a ha
      obtain ⟨j, _, rfl⟩ := List.mem_map.1 ha
      rfl
    rw [h1]
    have h2 : ∀ l : Info, (l.filterMap (fun e => if !e.2.1 && !e.2.2 then
        some (ConnIssue.populationNotConnected e.1) else none)).filter
          (fun i => match i with | .projectionNotConnected _ => true | _ => false) = [] := by
      intro l
      apply List.filter_eq_nil_iff.2
      intro a ha
      obtain ⟨e, _, he⟩ := List.mem_filterMap.1 ha
      split at he
      · rw [← Option.some.inj he]; simp
      · cases he
    rw [h2, List.append_nil]
  · unfold connectivity
    simp only
    rw [v3, List.nil_append, List.mem_append]
    constructor
    · rintro (hm | hm)
      · obtain ⟨j, hj, he⟩ := List.mem_map.1 hm
        have h1 := (List.mem_filter.1 hj).1
        have h2 := (List.mem_filter.1 hj).2
        injection he with he
        exact ⟨j, h1, he, by simpa using h2⟩
      · obtain ⟨e, _, he⟩ := List.mem_filterMap.1 hm
        split at he
        · cases Option.some.inj he
        · cases he
    · rintro ⟨j, hj, hu, h1, h2⟩
      refine Or.inl (List.mem_map.2 ⟨j, List.mem_filter.2 ⟨hj, by simp [h1, h2]⟩, by rw [hu]⟩)

/-- A projection with both UIDs empty is reported, first. -/
example : connectivity (P := Unit) (J := Unit)
    { populations := [⟨1, 0, ()⟩], projections := [⟨9, 0, 0, 0, ()⟩, ⟨8, 0, 2, 0, ()⟩] } =
    [.projectionNotConnected 9, .populationNotConnected 1] := by decide

/-! ## C41 -/

/-- One application of a validator of the list to an entity. -/
structure Application (σ : Type) where
  uid : UID
  name : String
  call : σ → σ × Outcome Report

/-- C41, specification: all applications in order – each population validator on each population, each
projection validator on each projection, each network validator on the network. -/
def applications {σ P J : Type} (x : Executor σ P J) (n : Network P J) : List (Application σ) :=
  (x.pops.flatMap fun v => n.populations.map fun e => ⟨v.1, v.2.1, fun s => v.2.2 s e⟩) ++
  (x.projs.flatMap fun v => n.projections.map fun e => ⟨v.1, v.2.1, fun s => v.2.2 s e⟩) ++
  (x.nets.map fun v => ⟨v.1, v.2.1, fun s => v.2.2 s n⟩)

/-- C41, specification: make the applications one after the other until one throws (or reports an unknown
severity). -/
def applyAll {σ : Type} : List (Application σ) → σ → List ValidatorResult → σ × Outcome (List ValidatorResult)
  | [], s, acc => (s, .ok acc)
  | a :: l, s, acc =>
    match a.call s with
    | (s', .ok r) => if ∃ i ∈ r, 2 < i.severity then (s', .throw "Unknown severity level.")
        else applyAll l s' (acc ++ [⟨a.uid, a.name, r⟩])
    | (s', .throw m) => (s', .throw m)
    | (s', .ub) => (s', .ub)

private theorem logReport_eq (r : Report) : logReport r =
    if ∃ i ∈ r, 2 < i.severity then .throw "Unknown severity level." else .ok () := by
  unfold logReport
  by_cases h : ∃ i ∈ r, 2 < i.severity
  · rw [if_pos h, if_neg]
    intro ha
    obtain ⟨i, hi, h2⟩ := h
    have := List.all_eq_true.1 ha i hi
    simp only [decide_eq_true_eq] at this
    omega
  · rw [if_neg h, if_pos]
    apply List.all_eq_true.2
    intro i hi
    simp only [decide_eq_true_eq]
    by_contra hc
    exact h ⟨i, hi, by omega⟩

/-- Continue after a first part. -/
private def andThen {σ : Type} (l : List (Application σ)) (s : σ × Outcome (List ValidatorResult)) :
    σ × Outcome (List ValidatorResult) :=
  match s.2 with
  | .ok acc => applyAll l s.1 acc
  | o => (s.1, o)

private theorem andThen_nil {σ : Type} (s : σ × Outcome (List ValidatorResult)) : andThen [] s = s := by
  obtain ⟨w, o⟩ := s
  cases o <;> rfl

private theorem andThen_append {σ : Type} (l1 l2 : List (Application σ))
    (s : σ × Outcome (List ValidatorResult)) : andThen (l1 ++ l2) s = andThen l2 (andThen l1 s) := by
  obtain ⟨w, o⟩ := s
  cases o with
  | throw m => rfl
  | ub => rfl
  | ok acc =>
    show applyAll (l1 ++ l2) w acc = andThen l2 (applyAll l1 w acc)
    induction l1 generalizing w acc with
    | nil => rfl
    | cons a l ih =>
      rw [List.cons_append]
      unfold applyAll
      rcases a.call w with ⟨w', o'⟩
      cases o' with
      | ok r =>
        simp only
        split
        · rfl
        · exact ih _ _
      | throw m => rfl
      | ub => rfl

private theorem applyOne_eq {σ E : Type} (k : UID) (name : String) (v : σ → E → σ × Outcome Report)
    (s : σ × Outcome (List ValidatorResult)) (e : E) :
    applyOne k name v s e = andThen [⟨k, name, fun s => v s e⟩] s := by
  obtain ⟨w, o⟩ := s
  cases o with
  | throw m => rfl
  | ub => rfl
  | ok acc =>
    show _ = applyAll [⟨k, name, fun s => v s e⟩] w acc
    unfold applyOne applyAll
    simp only
    rcases v w e with ⟨w', o'⟩
    cases o' with
    | ok r =>
      simp only
      rw [logReport_eq]
      by_cases hr : ∃ i ∈ r, 2 < i.severity
      · simp only [if_pos hr]
      · simp only [if_neg hr]; rfl
    | throw m => rfl
    | ub => rfl

private theorem foldl_andThen {σ E : Type} (f : (σ × Outcome (List ValidatorResult)) → E →
    (σ × Outcome (List ValidatorResult))) (g : E → List (Application σ)) (h : ∀ s e, f s e = andThen (g e) s)
    (l : List E) (s : σ × Outcome (List ValidatorResult)) : l.foldl f s = andThen (l.flatMap g) s := by
  induction l generalizing s with
  | nil => exact (andThen_nil s).symm
  | cons e l ih =>
    rw [List.foldl_cons, ih, h, List.flatMap_cons, andThen_append]

private theorem section_eq {σ E : Type} (m : VMap σ E) (es : List E)
    (s : σ × Outcome (List ValidatorResult)) :
    section_ m es s =
      andThen (m.flatMap fun v => es.map fun e => ⟨v.1, v.2.1, fun s => v.2.2 s e⟩) s := by
  unfold section_
  refine foldl_andThen (E := UID × String × (σ → E → σ × Outcome Report)) _ _ ?_ m s
  intro s v
  rw [foldl_andThen (applyOne v.1 v.2.1 v.2.2) (fun e => [⟨v.1, v.2.1, fun s => v.2.2 s e⟩])
    (fun s e => applyOne_eq _ _ _ s e)]
  congr 1
  induction es with
  | nil => rfl
  | cons e es ih => simp [List.flatMap_cons, ih]

/-- C41: running the validators makes exactly these applications, in this order, one result each, for every
validator set (stateful and throwing validators included) and every network. -/
theorem C41_all_applied {σ P J : Type} (x : Executor σ P J) (w : σ) (n : Network P J) :
    runValidators x w n = applyAll (applications x n) w [] := by
  unfold runValidators
  rw [section_eq, section_eq, section_eq, ← andThen_append, ← andThen_append]
  show applyAll _ w [] = _
  unfold applications
  rw [List.append_assoc]
  congr 3
  induction x.nets with
  | nil => rfl
  | cons v l ih =>
    rw [List.flatMap_cons, ih]; rfl

private theorem applyAll_ok {σ : Type} (l : List (Application σ)) (s s' : σ) (acc res : List ValidatorResult)
    (h : applyAll l s acc = (s', .ok res)) :
    ∃ rs, res = acc ++ rs ∧ rs.map (fun r => (r.uid, r.name)) = l.map (fun a => (a.uid, a.name)) := by
  induction l generalizing s acc with
  | nil =>
    unfold applyAll at h
    injection h with _ h
    injection h with h
    exact ⟨[], by simp [h], rfl⟩
  | cons a l ih =>
    unfold applyAll at h
    rcases hc : a.call s with ⟨w, o⟩
    rw [hc] at h
    cases o with
    | ok r =>
      simp only at h
      split at h
      · injection h with _ h; cases h
      · obtain ⟨rs, e1, e2⟩ := ih _ _ h
        exact ⟨⟨a.uid, a.name, r⟩ :: rs, by simp [e1], by simp [e2]⟩
    | throw m => simp only at h; injection h with _ h; cases h
    | ub => simp only at h; injection h with _ h; cases h

/-- C41: a run that returns has one result per application, under the validator's UID and name. -/
theorem C41_one_result_each {σ P J : Type} (x : Executor σ P J) (w w' : σ) (n : Network P J)
    (res : List ValidatorResult) (h : runValidators x w n = (w', .ok res)) :
    res.map (fun r => (r.uid, r.name)) = (applications x n).map (fun a => (a.uid, a.name)) ∧
    res.length = x.pops.length * n.populations.length + x.projs.length * n.projections.length +
      x.nets.length := by
  rw [C41_all_applied] at h
  obtain ⟨rs, e1, e2⟩ := applyAll_ok _ _ _ _ _ h
  rw [List.nil_append] at e1
  subst e1
  refine ⟨e2, ?_⟩
  have : res.length = (applications x n).length := by
    have := congrArg List.length e2
    simpa using this
  rw [this]
  unfold applications
  simp only [List.length_append, List.length_map]
  have hf : ∀ {E : Type} (m : VMap σ E) (es : List E),
      (m.flatMap fun v => es.map fun e => (⟨v.1, v.2.1, fun s => v.2.2 s e⟩ : Application σ)).length =
        m.length * es.length := by
    intro E m es
    induction m with
    | nil => simp
    | cons v m ih =>
      rw [List.flatMap_cons, List.length_append, ih, List.length_map, List.length_cons, Nat.add_one_mul,
        Nat.add_comm]
  rw [hf, hf]

private theorem setV_fresh {σ E : Type} (uid : UID) (v : String × (σ → E → σ × Outcome Report)) (m : VMap σ E)
    (h : ∀ e ∈ m, e.1 ≠ uid) : (setV uid v m).Perm ((uid, v) :: m) := by
  induction m with
  | nil => exact List.Perm.refl _
  | cons e m ih =>
    obtain ⟨k, w⟩ := e
    unfold setV
    have hk : ¬ uid = k := fun e => h (k, w) (by simp) e.symm
    rw [if_neg hk]
    split
    · exact List.Perm.refl _
    · exact ((ih (fun e he => h e (List.mem_cons_of_mem _ he))).cons _).trans (List.Perm.swap _ _ _)

/-- C41: every registered validator is in the set that is run, once: the maps are, up to order, the
registrations (with their given names; the unnamed ones are numbered by the number of validators of that kind
registered before). -/
theorem C41_registered {σ P J : Type} (ops : List (Add σ P J)) (o : Add σ P J)
    (h : ∀ o' ∈ ops, o'.uid ≠ o.uid) :
    let x := Executor.run ops
    let y := Executor.run (ops ++ [o])
    match o with
    | .pop u n v => y.pops.Perm ((u, n, v) :: x.pops) ∧ y.projs = x.projs ∧ y.nets = x.nets
    | .popUnnamed u v => y.pops.Perm ((u, "Population validator #" ++ toString x.pops.length, v) :: x.pops) ∧
        y.projs = x.projs ∧ y.nets = x.nets
    | .proj u n v => y.projs.Perm ((u, n, v) :: x.projs) ∧ y.pops = x.pops ∧ y.nets = x.nets
    | .projUnnamed u v =>
        y.projs.Perm ((u, "Projection validator #" ++ toString x.projs.length, v) :: x.projs) ∧
        y.pops = x.pops ∧ y.nets = x.nets
    | .net u n v => y.nets.Perm ((u, n, v) :: x.nets) ∧ y.pops = x.pops ∧ y.projs = x.projs
    | .netUnnamed u v => y.nets.Perm ((u, "Network validator #" ++ toString x.nets.length, v) :: x.nets) ∧
        y.pops = x.pops ∧ y.projs = x.projs := by
  have hset : ∀ {E : Type} (m : VMap σ E) (u : UID) (v : String × (σ → E → σ × Outcome Report)),
      ∀ e ∈ setV u v m, e.1 = u ∨ e ∈ m := by
    intro E m u v
    induction m with
    | nil => intro e he; simp [setV] at he; left; rw [he]
    | cons a m ih =>
      obtain ⟨k, w⟩ := a
      intro e he
      unfold setV at he
      split at he
      · rcases List.mem_cons.1 he with rfl | he
        · exact Or.inl rfl
        · exact Or.inr (List.mem_cons_of_mem _ he)
      · split at he
        · rcases List.mem_cons.1 he with rfl | he
          · exact Or.inl rfl
          · exact Or.inr he
        · rcases List.mem_cons.1 he with rfl | he
          · exact Or.inr (by simp)
          · rcases ih e he with h | h
            · exact Or.inl h
            · exact Or.inr (List.mem_cons_of_mem _ h)
  have inv : ∀ (ops : List (Add σ P J)) (x : Executor σ P J),
      (∀ e ∈ (ops.foldl Executor.add x).pops, (∃ e' ∈ x.pops, e'.1 = e.1) ∨ ∃ o' ∈ ops, o'.uid = e.1) ∧
      (∀ e ∈ (ops.foldl Executor.add x).projs, (∃ e' ∈ x.projs, e'.1 = e.1) ∨ ∃ o' ∈ ops, o'.uid = e.1) ∧
      (∀ e ∈ (ops.foldl Executor.add x).nets, (∃ e' ∈ x.nets, e'.1 = e.1) ∨ ∃ o' ∈ ops, o'.uid = e.1) := by
    intro ops
    induction ops with
    | nil =>
      intro x
      exact ⟨fun e he => Or.inl ⟨e, he, rfl⟩, fun e he => Or.inl ⟨e, he, rfl⟩, fun e he => Or.inl ⟨e, he, rfl⟩⟩
    | cons a ops ih =>
      intro x
      obtain ⟨i1, i2, i3⟩ := ih (x.add a)
      have lift : ∀ {E : Type} (m m' : VMap σ E), (∀ e ∈ m', e.1 = a.uid ∨ e ∈ m) →
          ∀ e : UID × String × (σ → E → σ × Outcome Report),
          ((∃ e' ∈ m', e'.1 = e.1) ∨ ∃ o' ∈ ops, o'.uid = e.1) →
          ((∃ e' ∈ m, e'.1 = e.1) ∨ ∃ o' ∈ a :: ops, o'.uid = e.1) := by
        intro E m m' hm e he
        rcases he with ⟨e', h1, h2⟩ | ⟨o', h1, h2⟩
        · rcases hm e' h1 with h3 | h3
          · exact Or.inr ⟨a, by simp, by rw [← h3, h2]⟩
          · exact Or.inl ⟨e', h3, h2⟩
        · exact Or.inr ⟨o', List.mem_cons_of_mem _ h1, h2⟩
      have hid : ∀ {E : Type} (m : VMap σ E), ∀ e ∈ m, e.1 = a.uid ∨ e ∈ m := fun m e he => Or.inr he
      rw [List.foldl_cons]
      refine ⟨fun e he => lift _ _ ?_ e (i1 e he), fun e he => lift _ _ ?_ e (i2 e he),
        fun e he => lift _ _ ?_ e (i3 e he)⟩ <;>
      · cases a <;> first | exact hid _ | exact hset _ _ _
  have i := inv ops { pops := [], projs := [], nets := [] }
  have f1 : ∀ e ∈ (Executor.run ops).pops, e.1 ≠ o.uid := by
    intro e he hc
    rcases i.1 e he with ⟨_, h1, _⟩ | ⟨o', h1, h2⟩
    · simp at h1
    · exact h o' h1 (h2.trans hc)
  have f2 : ∀ e ∈ (Executor.run ops).projs, e.1 ≠ o.uid := by
    intro e he hc
    rcases i.2.1 e he with ⟨_, h1, _⟩ | ⟨o', h1, h2⟩
    · simp at h1
    · exact h o' h1 (h2.trans hc)
  have f3 : ∀ e ∈ (Executor.run ops).nets, e.1 ≠ o.uid := by
    intro e he hc
    rcases i.2.2 e he with ⟨_, h1, _⟩ | ⟨o', h1, h2⟩
    · simp at h1
    · exact h o' h1 (h2.trans hc)
  have hy : Executor.run (ops ++ [o]) = (Executor.run ops).add o := by
    unfold Executor.run
    rw [List.foldl_append]; rfl
  intro x y
  have hy' : y = x.add o := hy
  rw [hy']
  cases o with
  | pop u n v => exact ⟨setV_fresh _ _ _ f1, rfl, rfl⟩
  | popUnnamed u v => exact ⟨setV_fresh _ _ _ f1, rfl, rfl⟩
  | proj u n v => exact ⟨setV_fresh _ _ _ f2, rfl, rfl⟩
  | projUnnamed u v => exact ⟨setV_fresh _ _ _ f2, rfl, rfl⟩
  | net u n v => exact ⟨setV_fresh _ _ _ f3, rfl, rfl⟩
  | netUnnamed u v => exact ⟨setV_fresh _ _ _ f3, rfl, rfl⟩

/-- A counting population validator on two populations and the network validator: results in order. -/
example : (runValidators (σ := Nat) (P := Unit) (J := Unit)
    (Executor.run [.popUnnamed 5 (fun s _ => (s + 1, .ok [⟨2, "bad", 0⟩])),
      .net 4 "n" (fun s _ => (s + 10, .ok []))]) 0
    { populations := [⟨1, 0, ()⟩, ⟨2, 0, ()⟩], projections := [] }) =
    (12, .ok [⟨5, "Population validator #0", [⟨2, "bad", 0⟩]⟩, ⟨5, "Population validator #0", [⟨2, "bad", 0⟩]⟩,
      ⟨4, "n", []⟩]) := by rfl

end Knp.Props
