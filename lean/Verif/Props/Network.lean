import Verif.Model.Network

/-! # C21–C24: networks and model channels -/

namespace Knp.Props
open Knp Knp.Network
variable {P J : Type}

/-! ## Generic facts about "first element with a UID" -/

section generic
variable {α : Type} (f : α → UID)

private theorem findVariant_isSome (u : UID) (l : List α) :
    (findVariant f u l).isSome = true ↔ ∃ x ∈ l, f x = u := by
  simp [findVariant, List.find?_isSome]

private theorem findVariant_none (u : UID) (l : List α) :
    findVariant f u l = none ↔ ∀ x ∈ l, f x ≠ u := by
  simp [findVariant]

private theorem eraseVariant_none (u : UID) (l : List α) :
    eraseVariant f u l = none ↔ ∀ x ∈ l, f x ≠ u := by
  induction l with
  | nil => simp [eraseVariant]
  | cons a l ih =>
    unfold eraseVariant
    by_cases h : f a = u
    · simp [h]
    · simp [h, ih]

private theorem eraseVariant_some (u : UID) (l l' : List α) (h : eraseVariant f u l = some l') :
    ∃ l₁ x l₂, l = l₁ ++ x :: l₂ ∧ f x = u ∧ (∀ y ∈ l₁, f y ≠ u) ∧ l' = l₁ ++ l₂ := by
  induction l generalizing l' with
  | nil => simp [eraseVariant] at h
  | cons a l ih =>
    unfold eraseVariant at h
    by_cases ha : f a = u
    · simp only [ha, beq_self_eq_true, if_true, Option.some.injEq] at h
      exact ⟨[], a, l, rfl, ha, by simp, by simp [h]⟩
    · have : (f a == u) = false := by simpa using ha
      simp only [this, Bool.false_eq_true, if_false, Option.map_eq_some_iff] at h
      obtain ⟨l'', h1, h2⟩ := h
      obtain ⟨l₁, x, l₂, e1, e2, e3, e4⟩ := ih l'' h1
      refine ⟨a :: l₁, x, l₂, by simp [e1], e2, ?_, by rw [← h2, e4]; rfl⟩
      intro y hy
      rcases List.mem_cons.1 hy with rfl | hy
      · exact ha
      · exact e3 y hy

private theorem eraseVariant_nodup (u : UID) (l l' : List α) (hn : (l.map f).Nodup)
    (h : eraseVariant f u l = some l') :
    (l'.map f).Nodup ∧ l' = l.filter (fun x => decide (f x ≠ u)) := by
  obtain ⟨l₁, x, l₂, e1, e2, e3, e4⟩ := eraseVariant_some f u l l' h
  subst e1 e4
  simp only [List.map_append, List.map_cons] at hn
  have hn' := List.nodup_append.1 hn
  have hc := List.nodup_cons.1 hn'.2.1
  constructor
  · rw [List.map_append]
    refine List.nodup_append.2 ⟨hn'.1, hc.2, ?_⟩
    intro a ha b hb
    exact hn'.2.2 a ha b (List.mem_cons_of_mem _ hb)
  · rw [List.filter_append, List.filter_cons_of_neg (by simp [e2])]
    rw [List.filter_eq_self.2 (by intro a ha; simpa using e3 a ha)]
    rw [List.filter_eq_self.2]
    intro a ha
    have : f a ≠ f x := fun e => hc.1 (e ▸ List.mem_map_of_mem ha)
    simpa [e2] using this

end generic

/-! ## C21 -/

/-- Well-formedness the English property asks for: no two populations and no two projections share a
UID. -/
def UidsUnique (n : Network P J) : Prop :=
  (n.populations.map PopEntity.uid).Nodup ∧ (n.projections.map ProjEntity.uid).Nodup

/-- C21, full statement: after every history of calls all UIDs are unique. -/
def C21_statement (P J : Type) : Prop := ∀ ops : List (Network.Op P J), UidsUnique (Network.run ops)

/-- C21 is false: the overload taking the variant – the one `network.add_population(pop)` resolves
to – performs no check, so adding the same population twice succeeds. -/
theorem C21_unique_uids_refuted : ¬ C21_statement Unit Unit := by
  intro h
  have := (h [.addPopulationVariant ⟨1, 0, ()⟩, .addPopulationVariant ⟨1, 0, ()⟩]).1
  revert this
  decide

/-- The same for projections. -/
theorem C21_unique_projections_refuted :
    ∃ ops : List (Network.Op Unit Unit),
      ¬ ((Network.run ops).projections.map ProjEntity.uid).Nodup :=
  ⟨[.addProjectionVariant ⟨7, 1, 2, 0, ()⟩, .addProjectionVariant ⟨7, 3, 4, 1, ()⟩], by decide⟩

/-- The calls for which uniqueness can be expected: the checked overloads, removals, connecting with a
newly generated UID, and the unchecked overloads when the caller passes an unused UID. -/
def Checked (n : Network P J) : Network.Op P J → Prop
  | .addPopulationVariant p => ∀ q ∈ n.populations, q.uid ≠ p.uid
  | .addProjectionVariant j => ∀ q ∈ n.projections, q.uid ≠ j.uid
  | .connect fresh _ _ _ _ => ∀ q ∈ n.projections, q.uid ≠ fresh
  | _ => True

/-- A history in which every call is `Checked` in the state it is made in. -/
def CheckedRun : Network P J → List (Network.Op P J) → Prop
  | _, [] => True
  | n, op :: ops => Checked n op ∧ CheckedRun (n.exec op) ops

private theorem addPop_unique {n : Network P J} {p : PopEntity P} (h : UidsUnique n)
    (hp : ∀ q ∈ n.populations, q.uid ≠ p.uid) :
    UidsUnique { n with populations := n.populations ++ [p] } := by
  refine ⟨?_, h.2⟩
  simp only [List.map_append, List.map_cons, List.map_nil]
  refine List.nodup_append.2 ⟨h.1, by simp, ?_⟩
  intro a ha b hb
  obtain ⟨q, hq, rfl⟩ := List.mem_map.1 ha
  rw [List.mem_singleton.1 hb]
  exact hp q hq

private theorem addProj_unique {n : Network P J} {p : ProjEntity J} (h : UidsUnique n)
    (hp : ∀ q ∈ n.projections, q.uid ≠ p.uid) :
    UidsUnique { n with projections := n.projections ++ [p] } := by
  refine ⟨h.1, ?_⟩
  simp only [List.map_append, List.map_cons, List.map_nil]
  refine List.nodup_append.2 ⟨h.2, by simp, ?_⟩
  intro a ha b hb
  obtain ⟨q, hq, rfl⟩ := List.mem_map.1 ha
  rw [List.mem_singleton.1 hb]
  exact hp q hq

private theorem exec_unique {n : Network P J} {op : Network.Op P J} (h : UidsUnique n)
    (hc : Checked n op) : UidsUnique (n.exec op) := by
  cases op with
  | addPopulationVariant p => exact addPop_unique h hc
  | addPopulationTyped p =>
    simp only [exec, call, addPopulationTyped]
    by_cases hp : n.isPopulationExists p.uid = true
    · simp [hp, h]
    · simp only [hp]
      refine addPop_unique h ?_
      intro q hq e
      exact hp ((findVariant_isSome PopEntity.uid p.uid _).2 ⟨q, hq, e⟩)
  | removePopulation u =>
    simp only [exec, call, removePopulation]
    cases he : eraseVariant PopEntity.uid u n.populations with
    | none => simpa using h
    | some l => exact ⟨(eraseVariant_nodup _ u _ l h.1 he).1, h.2⟩
  | addProjectionVariant j => exact addProj_unique h hc
  | addProjectionTyped p =>
    simp only [exec, call, addProjectionTyped]
    by_cases hp : n.isProjectionExists p.uid = true
    · simp [hp, h]
    · simp only [hp]
      refine addProj_unique h ?_
      intro q hq e
      exact hp ((findVariant_isSome ProjEntity.uid p.uid _).2 ⟨q, hq, e⟩)
  | removeProjection u =>
    simp only [exec, call, removeProjection]
    cases he : eraseVariant ProjEntity.uid u n.projections with
    | none => simpa using h
    | some l => exact ⟨h.1, (eraseVariant_nodup _ u _ l h.2 he).1⟩
  | connect f k b s d =>
    simp only [exec, call, connectPopulations]
    cases hg : n.getPopulationsUid s d with
    | ok r => exact addProj_unique (p := makeProjection f k b s d) h hc
    | throw w => simpa using h
    | ub => simpa using h

/-- C21, what holds: if every unchecked addition of the history uses a UID not present at that moment
(in particular if the history contains none of them and generated UIDs are new), UIDs are unique at
every point. -/
theorem C21_unique_uids_partial (ops : List (Network.Op P J))
    (hc : CheckedRun ⟨[], []⟩ ops) : UidsUnique (Network.run ops) := by
  have key : ∀ (ops : List (Network.Op P J)) (n : Network P J), UidsUnique n → CheckedRun n ops →
      UidsUnique (ops.foldl Network.exec n) := by
    intro ops
    induction ops with
    | nil => intro n h _; exact h
    | cons op ops ih => intro n h hc; exact ih _ (exec_unique h hc.1) hc.2
  exact key ops _ ⟨by simp, by simp⟩ hc

example : CheckedRun (⟨[], []⟩ : Network Unit Unit)
    [.addPopulationTyped ⟨1, 0, ()⟩, .addPopulationVariant ⟨2, 1, ()⟩, .addPopulationTyped ⟨1, 0, ()⟩,
     .connect 5 0 () ⟨1, 0, ()⟩ ⟨2, 1, ()⟩, .removePopulation 2] := by
  simp [CheckedRun, Checked, exec, call, addPopulationTyped, addPopulationVariant, isPopulationExists,
    findVariant, connectPopulations, getPopulationsUid, addProjectionVariant, makeProjection]

/-- C21, second half: the explicitly typed overloads throw and change nothing exactly when the UID is
already present; otherwise the entity is appended. -/
theorem C21_typed_add (n : Network P J) (p : PopEntity P) (j : ProjEntity J) :
    ((∃ q ∈ n.populations, q.uid = p.uid) →
      (n.call (.addPopulationTyped p)).isThrow = true ∧ n.exec (.addPopulationTyped p) = n) ∧
    ((∀ q ∈ n.populations, q.uid ≠ p.uid) →
      n.call (.addPopulationTyped p) = .ok { n with populations := n.populations ++ [p] }) ∧
    ((∃ q ∈ n.projections, q.uid = j.uid) →
      (n.call (.addProjectionTyped j)).isThrow = true ∧ n.exec (.addProjectionTyped j) = n) ∧
    ((∀ q ∈ n.projections, q.uid ≠ j.uid) →
      n.call (.addProjectionTyped j) = .ok { n with projections := n.projections ++ [j] }) := by
  refine ⟨?_, ?_, ?_, ?_⟩
  · intro h
    have : n.isPopulationExists p.uid = true := (findVariant_isSome PopEntity.uid p.uid _).2 h
    simp [exec, call, addPopulationTyped, this, Outcome.isThrow]
  · intro h
    have : n.isPopulationExists p.uid = false := by
      simp [isPopulationExists, (findVariant_none PopEntity.uid p.uid _).2 h]
    simp [call, addPopulationTyped, this, addPopulationVariant]
  · intro h
    have : n.isProjectionExists j.uid = true := (findVariant_isSome ProjEntity.uid j.uid _).2 h
    simp [exec, call, addProjectionTyped, this, Outcome.isThrow]
  · intro h
    have : n.isProjectionExists j.uid = false := by
      simp [isProjectionExists, (findVariant_none ProjEntity.uid j.uid _).2 h]
    simp [call, addProjectionTyped, this, addProjectionVariant]

/-! ## C22 -/

/-- C22, lookup of populations: `is_population_exists`, the two `get_population` and the contents
agree, in every network. -/
theorem C22_population_lookup (n : Network P J) (u : UID) :
    (n.isPopulationExists u = true ↔ ∃ p ∈ n.populations, p.uid = u) ∧
    (n.isPopulationExists u = false → (n.getPopulation u).isThrow = true ∧
      ∀ k, (n.getPopulationTyped k u).isThrow = true) ∧
    (n.isPopulationExists u = true → ∃ p ∈ n.populations, p.uid = u ∧ n.getPopulation u = .ok p ∧
      ∀ k, (k = p.kind → n.getPopulationTyped k u = .ok p) ∧
        (k ≠ p.kind → (n.getPopulationTyped k u).isThrow = true)) := by
  refine ⟨findVariant_isSome PopEntity.uid u _, ?_, ?_⟩
  · intro h
    have : findVariant PopEntity.uid u n.populations = none := by
      simpa [isPopulationExists] using h
    simp [getPopulation, getPopulationTyped, this, Outcome.isThrow]
  · intro h
    obtain ⟨p, hp⟩ := Option.isSome_iff_exists.1 h
    have h1 := List.mem_of_find?_eq_some hp
    have h2 : p.uid = u := by simpa using List.find?_some hp
    refine ⟨p, h1, h2, by simp [getPopulation, hp], ?_⟩
    intro k
    constructor
    · intro hk; simp [getPopulationTyped, hp, hk]
    · intro hk
      have : ¬ p.kind = k := fun e => hk e.symm
      simp [getPopulationTyped, hp, this, Outcome.isThrow]

/-- C22, lookup of projections. -/
theorem C22_projection_lookup (n : Network P J) (u : UID) :
    (n.isProjectionExists u = true ↔ ∃ p ∈ n.projections, p.uid = u) ∧
    (n.isProjectionExists u = false → (n.getProjection u).isThrow = true ∧
      ∀ k, (n.getProjectionTyped k u).isThrow = true) ∧
    (n.isProjectionExists u = true → ∃ p ∈ n.projections, p.uid = u ∧ n.getProjection u = .ok p ∧
      ∀ k, (k = p.kind → n.getProjectionTyped k u = .ok p) ∧
        (k ≠ p.kind → (n.getProjectionTyped k u).isThrow = true)) := by
  refine ⟨findVariant_isSome ProjEntity.uid u _, ?_, ?_⟩
  · intro h
    have : findVariant ProjEntity.uid u n.projections = none := by
      simpa [isProjectionExists] using h
    simp [getProjection, getProjectionTyped, this, Outcome.isThrow]
  · intro h
    obtain ⟨p, hp⟩ := Option.isSome_iff_exists.1 h
    have h1 := List.mem_of_find?_eq_some hp
    have h2 : p.uid = u := by simpa using List.find?_some hp
    refine ⟨p, h1, h2, by simp [getProjection, hp], ?_⟩
    intro k
    constructor
    · intro hk; simp [getProjectionTyped, hp, hk]
    · intro hk
      have : ¬ p.kind = k := fun e => hk e.symm
      simp [getProjectionTyped, hp, this, Outcome.isThrow]

example : ((Network.run [.addPopulationTyped ⟨1, 0, ()⟩, .addPopulationTyped ⟨2, 3, ()⟩] :
    Network Unit Unit).getPopulationTyped 3 2).isOk = true := by decide

/-- C22, removal of a population: on an absent UID it throws and changes nothing; otherwise exactly one
entity – the one `get_population` returns – goes, the others keep their order, and projections are
untouched. -/
theorem C22_remove_population (n : Network P J) (u : UID) :
    ((∀ p ∈ n.populations, p.uid ≠ u) →
      (n.call (.removePopulation u)).isThrow = true ∧ n.exec (.removePopulation u) = n) ∧
    ((∃ p ∈ n.populations, p.uid = u) → ∃ before p after,
      n.populations = before ++ p :: after ∧ p.uid = u ∧ n.getPopulation u = .ok p ∧
      n.call (.removePopulation u) =
        .ok { populations := before ++ after, projections := n.projections }) := by
  constructor
  · intro h
    have he := (eraseVariant_none PopEntity.uid u _).2 h
    simp [exec, call, removePopulation, he, Outcome.isThrow]
  · intro h
    cases he : eraseVariant PopEntity.uid u n.populations with
    | none =>
      obtain ⟨p, hp, e⟩ := h
      exact absurd e ((eraseVariant_none PopEntity.uid u _).1 he p hp)
    | some l =>
      obtain ⟨l₁, x, l₂, e1, e2, e3, e4⟩ := eraseVariant_some _ u _ l he
      refine ⟨l₁, x, l₂, e1, e2, ?_, ?_⟩
      · have : findVariant PopEntity.uid u n.populations = some x := by
          rw [e1]
          unfold findVariant
          rw [List.find?_append, List.find?_eq_none.2 (by simpa using e3)]
          simp [e2]
        simp [getPopulation, this]
      · simp [call, removePopulation, he, e4]

/-- C22, removal of a projection. -/
theorem C22_remove_projection (n : Network P J) (u : UID) :
    ((∀ p ∈ n.projections, p.uid ≠ u) →
      (n.call (.removeProjection u)).isThrow = true ∧ n.exec (.removeProjection u) = n) ∧
    ((∃ p ∈ n.projections, p.uid = u) → ∃ before p after,
      n.projections = before ++ p :: after ∧ p.uid = u ∧ n.getProjection u = .ok p ∧
      n.call (.removeProjection u) =
        .ok { populations := n.populations, projections := before ++ after }) := by
  constructor
  · intro h
    have he := (eraseVariant_none ProjEntity.uid u _).2 h
    simp [exec, call, removeProjection, he, Outcome.isThrow]
  · intro h
    cases he : eraseVariant ProjEntity.uid u n.projections with
    | none =>
      obtain ⟨p, hp, e⟩ := h
      exact absurd e ((eraseVariant_none ProjEntity.uid u _).1 he p hp)
    | some l =>
      obtain ⟨l₁, x, l₂, e1, e2, e3, e4⟩ := eraseVariant_some _ u _ l he
      refine ⟨l₁, x, l₂, e1, e2, ?_, ?_⟩
      · have : findVariant ProjEntity.uid u n.projections = some x := by
          rw [e1]
          unfold findVariant
          rw [List.find?_append, List.find?_eq_none.2 (by simpa using e3)]
          simp [e2]
        simp [getProjection, this]
      · simp [call, removeProjection, he, e4]

/-- C22, with unique UIDs removal deletes exactly the entities with that UID. -/
theorem C22_remove_unique (n n' : Network P J) (u : UID) (h : UidsUnique n)
    (hr : n.call (.removePopulation u) = .ok n') :
    n'.populations = n.populations.filter (fun p => decide (p.uid ≠ u)) ∧
      n'.isPopulationExists u = false := by
  simp only [call, removePopulation] at hr
  cases he : eraseVariant PopEntity.uid u n.populations with
  | none => rw [he] at hr; cases hr
  | some l =>
    rw [he] at hr
    have e := Outcome.ok.inj hr
    have h2 := (eraseVariant_nodup _ u _ l h.1 he).2
    subst e
    refine ⟨h2, ?_⟩
    have : findVariant PopEntity.uid u l = none := by
      rw [findVariant_none]
      intro x hx
      rw [h2] at hx
      simpa using (List.mem_filter.1 hx).2
    simp [isPopulationExists, this]

example : UidsUnique (⟨[⟨1, 0, ()⟩, ⟨2, 0, ()⟩], []⟩ : Network Unit Unit) ∧
    (⟨[⟨1, 0, ()⟩, ⟨2, 0, ()⟩], []⟩ : Network Unit Unit).call (.removePopulation 1) =
      .ok ⟨[⟨2, 0, ()⟩], []⟩ := by
  constructor
  · simp [UidsUnique]
  · rfl

/-! ## C23 -/

/-- C23: `connect_populations` with both populations present appends exactly one projection from the
one to the other, under the returned UID; populations and existing projections are untouched. -/
theorem C23_connect_ok (n : Network P J) (fresh : UID) (k : Nat) (b : J) (src dst : PopEntity P)
    (hs : ∃ p ∈ n.populations, p.uid = src.uid) (hd : ∃ p ∈ n.populations, p.uid = dst.uid) :
    ∃ n' r, n.connectPopulations fresh k b src dst = .ok (n', r) ∧
      n'.populations = n.populations ∧
      (∃ j, n'.projections = n.projections ++ [j] ∧ j.uid = r ∧ j.pre = src.uid ∧ j.post = dst.uid) := by
  have h1 : n.isPopulationExists src.uid = true := (findVariant_isSome PopEntity.uid _ _).2 hs
  have h2 : n.isPopulationExists dst.uid = true := (findVariant_isSome PopEntity.uid _ _).2 hd
  refine ⟨⟨n.populations, n.projections ++ [makeProjection fresh k b src dst]⟩, fresh, ?_, rfl,
    _, rfl, rfl, rfl, rfl⟩
  simp [connectPopulations, getPopulationsUid, h1, h2, addProjectionVariant]

/-- C23: if one of the populations is not in the network the call throws and nothing changes. -/
theorem C23_connect_missing (n : Network P J) (fresh : UID) (k : Nat) (b : J) (src dst : PopEntity P)
    (h : (∀ p ∈ n.populations, p.uid ≠ src.uid) ∨ (∀ p ∈ n.populations, p.uid ≠ dst.uid)) :
    (n.call (.connect fresh k b src dst)).isThrow = true ∧
      n.exec (.connect fresh k b src dst) = n := by
  have hn : ∀ u, (∀ p ∈ n.populations, p.uid ≠ u) → n.isPopulationExists u = false := by
    intro u hu
    simp [isPopulationExists, (findVariant_none PopEntity.uid u _).2 hu]
  have hg : ∃ w, n.getPopulationsUid src dst = .throw w := by
    unfold getPopulationsUid
    rcases h with h | h
    · rw [hn _ h]; exact ⟨_, rfl⟩
    · rw [hn _ h]
      cases n.isPopulationExists src.uid
      · exact ⟨_, rfl⟩
      · exact ⟨_, rfl⟩
  obtain ⟨w, hw⟩ := hg
  simp [exec, call, connectPopulations, hw, Outcome.isThrow]

example : ((⟨[⟨1, 0, ()⟩, ⟨2, 0, ()⟩], []⟩ : Network Unit Unit).connectPopulations 9 0 ()
    ⟨1, 0, ()⟩ ⟨2, 0, ()⟩) = .ok (⟨[⟨1, 0, ()⟩, ⟨2, 0, ()⟩], [⟨9, 1, 2, 0, ()⟩]⟩, 9) := by rfl
example : ((⟨[⟨1, 0, ()⟩], []⟩ : Network Unit Unit).call
    (.connect 9 0 () ⟨1, 0, ()⟩ ⟨2, 0, ()⟩)).isThrow = true := by rfl

/-! ## C24 -/

/-- What C24 asks for. -/
def ChannelsValid (m : FModel P J) : Prop :=
  (∀ c ∈ m.inChannels, ∃ j ∈ m.network.projections, j.uid = c.2) ∧
  (∀ c ∈ m.outChannels, ∃ p ∈ m.network.populations, p.uid = c.2)

/-- C24, full statement. -/
def C24_statement (P J : Type) : Prop :=
  ∀ (n : Network P J) (ops : List (FModel.Op P J)), ChannelsValid (FModel.run n ops)

/-- C24 is false in general: the network stays accessible, so a registered projection can be removed
and the channel dangles. -/
theorem C24_channels_valid_refuted : ¬ C24_statement Unit Unit := by
  intro h
  have := (h ⟨[], [⟨7, 1, 2, 0, ()⟩]⟩ [.addInput 100 7, .net (.removeProjection 7)]).1
  revert this
  decide

private theorem exec_keeps {n : Network P J} {op : Network.Op P J}
    (hop : (∀ u, op ≠ .removePopulation u) ∧ (∀ u, op ≠ .removeProjection u)) :
    (∀ x ∈ n.populations, x ∈ (n.exec op).populations) ∧
    (∀ x ∈ n.projections, x ∈ (n.exec op).projections) := by
  cases op with
  | removePopulation u => exact absurd rfl (hop.1 u)
  | removeProjection u => exact absurd rfl (hop.2 u)
  | addPopulationVariant p => simp +contextual [exec, call, addPopulationVariant]
  | addPopulationTyped p =>
    simp only [exec, call, addPopulationTyped]
    cases n.isPopulationExists p.uid <;> simp +contextual [addPopulationVariant]
  | addProjectionVariant p => simp +contextual [exec, call, addProjectionVariant]
  | addProjectionTyped p =>
    simp only [exec, call, addProjectionTyped]
    cases n.isProjectionExists p.uid <;> simp +contextual [addProjectionVariant]
  | connect f k b s d =>
    simp only [exec, call, connectPopulations]
    cases n.getPopulationsUid s d <;> simp +contextual [addProjectionVariant]

/-- C24, what holds: as long as nothing is removed from the network after channels were registered,
every registered channel refers to an existing entity of the right sort. -/
theorem C24_channels_valid_partial (n : Network P J) (ops : List (FModel.Op P J))
    (hops : ∀ op ∈ ops, (∀ u, op ≠ .net (.removePopulation u)) ∧
      (∀ u, op ≠ .net (.removeProjection u))) :
    ChannelsValid (FModel.run n ops) := by
  have key : ∀ (ops : List (FModel.Op P J)) (m : FModel P J), ChannelsValid m →
      (∀ op ∈ ops, (∀ u, op ≠ .net (.removePopulation u)) ∧
        (∀ u, op ≠ .net (.removeProjection u))) →
      ChannelsValid (ops.foldl FModel.exec m) := by
    intro ops
    induction ops with
    | nil => intro m h _; exact h
    | cons op ops ih =>
      intro m h hops
      refine ih _ ?_ (fun o ho => hops o (List.mem_cons_of_mem _ ho))
      have hop := hops op (by simp)
      cases op with
      | addInput c p =>
        simp only [FModel.exec, FModel.call, FModel.addInputChannel]
        cases he : m.network.isProjectionExists p with
        | false => simpa using h
        | true =>
          refine ⟨?_, h.2⟩
          intro x hx
          rcases List.mem_cons.1 hx with rfl | hx
          · exact (findVariant_isSome ProjEntity.uid p _).1 he
          · exact h.1 x hx
      | addOutput c p =>
        simp only [FModel.exec, FModel.call, FModel.addOutputChannel]
        cases he : m.network.isPopulationExists p with
        | false => simpa using h
        | true =>
          refine ⟨h.1, ?_⟩
          intro x hx
          rcases List.mem_cons.1 hx with rfl | hx
          · exact (findVariant_isSome PopEntity.uid p _).1 he
          · exact h.2 x hx
      | net op =>
        have hk := exec_keeps (n := m.network) (op := op)
          ⟨fun u e => hop.1 u (by rw [e]), fun u e => hop.2 u (by rw [e])⟩
        unfold Network.exec at hk
        simp only [FModel.exec, FModel.call]
        cases hc : m.network.call op with
        | throw w => simpa using h
        | ub => simpa using h
        | ok n' =>
          rw [hc] at hk
          constructor
          · intro c hcm
            obtain ⟨j, hj, e⟩ := h.1 c hcm
            exact ⟨j, hk.2 j hj, e⟩
          · intro c hcm
            obtain ⟨j, hj, e⟩ := h.2 c hcm
            exact ⟨j, hk.1 j hj, e⟩
  exact key ops _ ⟨by simp, by simp⟩ hops

example : (FModel.run ⟨[⟨1, 0, ()⟩], []⟩ [.net (.connect 5 0 () ⟨1, 0, ()⟩ ⟨1, 0, ()⟩), .addInput 100 5,
    .addOutput 101 1, .addInput 102 77] : FModel Unit Unit) =
    ⟨⟨[⟨1, 0, ()⟩], [⟨5, 1, 1, 0, ()⟩]⟩, [(100, 5)], [(101, 1)]⟩ := by rfl

/-- C24: registration succeeds exactly if the entity exists at that moment; otherwise it throws and the
model is unchanged; when it succeeds exactly this pair is added. -/
theorem C24_registration (m : FModel P J) (c e : UID) :
    ((∃ j ∈ m.network.projections, j.uid = e) → ∃ m', m.call (.addInput c e) = .ok m' ∧
      m'.network = m.network ∧ m'.outChannels = m.outChannels ∧
      m'.inChannels = (c, e) :: m.inChannels) ∧
    ((∀ j ∈ m.network.projections, j.uid ≠ e) → (m.call (.addInput c e)).isThrow = true ∧
      m.exec (.addInput c e) = m) ∧
    ((∃ j ∈ m.network.populations, j.uid = e) → ∃ m', m.call (.addOutput c e) = .ok m' ∧
      m'.network = m.network ∧ m'.inChannels = m.inChannels ∧
      m'.outChannels = (c, e) :: m.outChannels) ∧
    ((∀ j ∈ m.network.populations, j.uid ≠ e) → (m.call (.addOutput c e)).isThrow = true ∧
      m.exec (.addOutput c e) = m) := by
  refine ⟨?_, ?_, ?_, ?_⟩
  · intro h
    have : m.network.isProjectionExists e = true := (findVariant_isSome ProjEntity.uid e _).2 h
    simp [FModel.call, FModel.addInputChannel, this]
  · intro h
    have : m.network.isProjectionExists e = false := by
      simp [isProjectionExists, (findVariant_none ProjEntity.uid e _).2 h]
    simp [FModel.exec, FModel.call, FModel.addInputChannel, this, Outcome.isThrow]
  · intro h
    have : m.network.isPopulationExists e = true := (findVariant_isSome PopEntity.uid e _).2 h
    simp [FModel.call, FModel.addOutputChannel, this]
  · intro h
    have : m.network.isPopulationExists e = false := by
      simp [isPopulationExists, (findVariant_none PopEntity.uid e _).2 h]
    simp [FModel.exec, FModel.call, FModel.addOutputChannel, this, Outcome.isThrow]

end Knp.Props
