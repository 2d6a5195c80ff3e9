import Verif.Lemmas.LearnAgree

/-! # Lemmas: two runs of a learning network that differ in schedules, parts or backend (projections, steps, runs) -/

namespace Knp.Learn
open Knp Knp.Bus Knp.Spec Knp.Neurons Knp.Sys Knp.Stdp Knp.Lemmas.Stdp Knp.Props

variable {N B F : Type}

/-! ## Marking synapses -/

theorem modifyAll_get {α : Type} (f : α → α) (hf : ∀ x, f (f x) = f x) : ∀ (L : List Nat) (l : List α) (i : Nat),
    (L.foldl (fun ss k => ss.modify k f) l)[i]? = if i ∈ L then (l[i]?).map f else l[i]? := by
  intro L
  induction L with
  | nil => intro l i; simp
  | cons k L ih =>
    intro l i
    rw [List.foldl_cons, ih, List.getElem?_modify]
    by_cases hk : k = i
    · subst hk
      by_cases hL : k ∈ L
      · simp only [hL, if_true, List.mem_cons, true_or]
        cases l[k]? with
        | none => rfl
        | some x => simp [hf]
      · simp only [hL, if_false, if_true, List.mem_cons, true_or]
        cases l[k]? <;> rfl
    · simp only [hk, if_false, Ne.symm hk, List.mem_cons, false_or]
      simp

/-- What a message does to a resource synapse. -/
def mark (t : Nat) (m : SpikeMessage) (s : RSyn F) : RSyn F := if s.source ∈ m.neuronIndexes then touch t s else s

theorem markAll_eq (t part : Nat) (hp : 1 ≤ part ∧ part < two64) (m : SpikeMessage) (ms : List SpikeMessage) (syns : List (RSyn F))
    (hsz : syns.length ≤ 2 ^ 63) : markAll t part (m :: ms) syns = syns.map (mark t m) := by
  obtain ⟨starts, h1, h2⟩ := C46_partition syns.length part hp.1 hp.2 hsz
  have e : (fun s : RSyn F => if (Delta.countOf (Delta.convertSpikes m.neuronIndexes) s.source).isSome then touch t s else s) =
      mark t m := by
    funext s
    unfold mark
    rw [countOf_convert]
    by_cases hs : s.source ∈ m.neuronIndexes <;> simp [hs]
  unfold markAll
  simp only
  rw [h1]
  simp only
  have gen : ∀ (l : List Nat) (n : Nat) (x : List (RSyn F)),
      l.foldl (fun ss lo => markPart t m.neuronIndexes lo (Delta.partEnd n part lo) ss) x =
      (l.flatMap fun lo => List.range' lo (Delta.partEnd n part lo - lo)).foldl (fun ss k => ss.modify k (mark t m)) x := by
    intro l n
    induction l with
    | nil => intro x; rfl
    | cons lo l ih =>
      intro x
      rw [List.foldl_cons, ih, List.flatMap_cons, List.foldl_append]
      congr 1
      unfold markPart
      rw [e]
  rw [gen, h2]
  apply List.ext_getElem?
  intro i
  rw [modifyAll_get, List.getElem?_map]
  · by_cases hi : i < syns.length
    · rw [if_pos (List.mem_range.2 hi)]
    · rw [if_neg (fun h => hi (List.mem_range.1 h)), List.getElem?_eq_none (by omega)]; rfl
  · intro s
    unfold mark
    by_cases hs : s.source ∈ m.neuronIndexes
    · have : (touch t s).source ∈ m.neuronIndexes := hs
      rw [if_pos hs, if_pos this]
      rfl
    · rw [if_neg hs, if_neg hs]

theorem touchAll_one (t : Nat) (pre : Nat → List Nat) (m : SpikeMessage) (syns : List (RSyn F))
    (hf : ExactFind (⟨syns.map ofR, pre⟩ : Delta.Proj F)) : touchAll t pre [m] syns = syns.map (mark t m) := by
  have gen : ∀ (l : List Nat) (x : List (RSyn F)),
      l.foldl (fun ss n => (pre n).foldl (fun ss k => ss.modify k (touch t)) ss) x =
      (l.flatMap pre).foldl (fun ss k => ss.modify k (touch t)) x := by
    intro l
    induction l with
    | nil => intro x; rfl
    | cons n l ih => intro x; rw [List.foldl_cons, ih, List.flatMap_cons, List.foldl_append]
  unfold touchAll
  simp only [List.foldl_cons, List.foldl_nil]
  rw [gen]
  apply List.ext_getElem?
  intro i
  rw [modifyAll_get (touch t) (fun _ => rfl), List.getElem?_map]
  cases hi : syns[i]? with
  | none => simp
  | some s =>
    have hm : i ∈ m.neuronIndexes.flatMap pre ↔ s.source ∈ m.neuronIndexes := by
      rw [List.mem_flatMap]
      constructor
      · rintro ⟨n, hn, hk⟩
        obtain ⟨s', h1, h2⟩ := ((hf n).2 i).1 hk
        simp only [List.getElem?_map, hi, Option.map_some, Option.some.injEq] at h1
        rw [← h1] at h2
        have h3 : s.source = n := h2
        rw [h3]; exact hn
      · intro hs
        refine ⟨s.source, hs, ((hf s.source).2 i).2 ⟨ofR s, by simp [hi], rfl⟩⟩
    unfold mark
    by_cases hs : s.source ∈ m.neuronIndexes
    · rw [if_pos (hm.2 hs), Option.map_some, Option.map_some, if_pos hs]
    · rw [if_neg (fun h => hs (hm.1 h)), Option.map_some, if_neg hs]

theorem map_mark_untimed (t : Nat) (m : SpikeMessage) (syns : List (RSyn F)) :
    (syns.map (mark t m)).map (touch 0) = syns.map (touch 0) := by
  rw [List.map_map]
  apply List.map_congr_left
  intro s _
  simp only [Function.comp, mark]
  split <;> rfl

/-! ## Projections -/

variable [Field F] [LinearOrder F]

/-- What stays as it is: ends, delays, types, lookups. -/
def Stays (j j' : Proj F) : Prop :=
  Learn.skeleton j'.syns.view = Learn.skeleton j.syns.view ∧ (FindOk j.toR → FindOk j'.toR)

omit [Field F] [LinearOrder F] in
theorem skeleton_length {p q : Delta.Proj F} (h : Learn.skeleton q = Learn.skeleton p) : q.synapses.length = p.synapses.length := by
  have := congrArg (fun x => x.1.length) h
  simpa [Learn.skeleton] using this

omit [Field F] [LinearOrder F] in
theorem resource_stays (j : Proj F) (pops : List (UID × Processing)) (syns syns' : List (RSyn F)) (pre post : Nat → List Nat)
    (q : Delta.Queue F) (hs : j.syns = .resource pops syns pre post) (hu : syns'.map (touch 0) = syns.map (touch 0)) :
    Stays j { j with syns := .resource pops syns' pre post, queue := q } := by
  refine ⟨?_, ?_⟩
  · rw [hs]
    unfold Learn.skeleton Syns.view
    simp only [Prod.mk.injEq, and_true]
    have h := congrArg (List.map (fun s : RSyn F => (s.source, s.target, s.delay, s.outType))) hu
    rw [List.map_map, List.map_map] at h ⊢
    exact h
  · have e1 : j.toR = ⟨j.ident.uid, j.ident.post, j.locked, syns, post⟩ := by unfold Proj.toR; rw [hs]
    rw [e1]
    exact untimed_find (p := ⟨j.ident.uid, j.ident.post, j.locked, syns, post⟩) rfl hu

theorem markAll_untimed (t part : Nat) (hp : 1 ≤ part ∧ part < two64) (ms : List SpikeMessage) (syns : List (RSyn F))
    (hsz : syns.length ≤ 2 ^ 63) : (markAll t part ms syns).map (touch 0) = syns.map (touch 0) := by
  cases ms with
  | nil => rfl
  | cons m ms => rw [markAll_eq t part hp m ms syns hsz, map_mark_untimed]

theorem projStepM_stays (c : Config F) (hc : 1 ≤ c.projPart ∧ c.projPart < two64) (t : Nat) (j j' : Proj F)
    (ms : List SpikeMessage) (or : List Nat) (s : Option (SynapticImpactMessage F))
    (hsz : j.syns.view.synapses.length ≤ 2 ^ 63) (h : projStepM c t j ms or = some (j', s)) :
    Stays j j' ∧ j'.ident = j.ident ∧ j'.locked = j.locked := by
  unfold projStepM at h
  cases hs : j.syns with
  | additive _ _ _ _ => rw [hs] at h; cases h
  | delta p =>
    rw [hs] at h
    simp only at h
    split at h
    · cases h
    · simp only [Option.some.injEq, Prod.mk.injEq] at h
      rw [← h.1]
      refine ⟨⟨by rw [hs], ?_⟩, rfl, rfl⟩
      intro hf
      unfold Proj.toR at hf ⊢
      rw [hs] at hf
      exact hf
  | resource pops syns pre post =>
    rw [hs] at h
    simp only at h
    split at h
    · cases h
    · simp only [Option.some.injEq, Prod.mk.injEq] at h
      rw [← h.1]
      have hl : syns.length ≤ 2 ^ 63 := by
        rw [hs] at hsz
        simpa [Syns.view] using hsz
      exact ⟨resource_stays j pops syns _ pre post _ hs (markAll_untimed t _ hc ms syns hl), rfl, rfl⟩

/-- One projection under two schedules and part sizes of the multi-threaded backend. -/
theorem projStepM_same (c c' : Config F) (hsc : c'.scale = c.scale) (hc : 1 ≤ c.projPart ∧ c.projPart < two64)
    (hc' : 1 ≤ c'.projPart ∧ c'.projPart < two64) (t : Nat) (a b a' b' : Proj F) (ms ms' : List SpikeMessage) (or or' : List Nat)
    (s s' : Option (SynapticImpactMessage F)) (hsz : a.syns.view.synapses.length ≤ 2 ^ 63) (hab : SameProjL t a b)
    (hm : List.Forall₂ SameSpikeMsg ms ms') (h : projStepM c t a ms or = some (a', s))
    (h' : projStepM c' t b ms' or' = some (b', s')) : SameProjL (t + 1) a' b' ∧ SameImpacts s s' := by
  have key : ∀ (p : Delta.Proj F) (ts ts' : List (List (Nat × SynapticImpact F))), p.synapses.length ≤ 2 ^ 63 →
      reorder or (Delta.tasks c.scale p t c.projPart ms) = some ts →
      reorder or' (Delta.tasks c'.scale p t c'.projPart ms') = some ts' → ts.flatten.Perm ts'.flatten := by
    intro p ts ts' hp h1 h2
    have p1 := (reorder_perm _ _ _ h1).flatten
    have p2 := (reorder_perm _ _ _ h2).flatten
    have e : (Delta.tasks c.scale p t c.projPart ms).flatten = (Delta.tasks c'.scale p t c'.projPart ms').flatten := by
      cases hm with
      | nil => rfl
      | cons hx _ => rw [hsc]; exact tasks_same _ _ _ _ _ hc hc' hp _ _ _ _ hx.2
    rw [e] at p1
    exact p1.trans p2.symm
  unfold projStepM at h h'
  rw [← hab.syns] at h'
  cases hs : a.syns with
  | additive _ _ _ _ => rw [hs] at h; cases h
  | delta p =>
    rw [hs] at h h' hsz
    simp only at h h'
    cases h1 : reorder or (Delta.tasks c.scale p t c.projPart ms) with
    | none => rw [h1] at h; cases h
    | some ts =>
      cases h2 : reorder or' (Delta.tasks c'.scale p t c'.projPart ms') with
      | none => rw [h2] at h'; cases h'
      | some ts' =>
        rw [h1] at h
        rw [h2] at h'
        simp only [Option.some.injEq, Prod.mk.injEq] at h h'
        obtain ⟨g1, g2⟩ := C45_order_step a.ident t ts ts' (key p ts ts' hsz h1 h2) a.queue b.queue hab.queue
        rw [← h.1, ← h.2, ← h'.1, ← h'.2, ← hab.ident]
        exact ⟨⟨rfl, hab.locked, rfl, g2⟩, g1⟩
  | resource pops syns pre post =>
    rw [hs] at h h' hsz
    simp only at h h'
    cases h1 : reorder or (Delta.tasks c.scale (Syns.resource pops syns pre post).view t c.projPart ms) with
    | none => rw [h1] at h; cases h
    | some ts =>
      cases h2 : reorder or' (Delta.tasks c'.scale (Syns.resource pops syns pre post).view t c'.projPart ms') with
      | none => rw [h2] at h'; cases h'
      | some ts' =>
        rw [h1] at h
        rw [h2] at h'
        simp only [Option.some.injEq, Prod.mk.injEq] at h h'
        obtain ⟨g1, g2⟩ := C45_order_step a.ident t ts ts' (key _ ts ts' hsz h1 h2) a.queue b.queue hab.queue
        rw [← h.1, ← h.2, ← h'.1, ← h'.2, ← hab.ident]
        have hl : syns.length ≤ 2 ^ 63 := by simpa [Syns.view] using hsz
        have hmark : markAll t c.projPart ms syns = markAll t c'.projPart ms' syns := by
          cases hm with
          | nil => rfl
          | cons hx _ =>
            rw [markAll_eq t _ hc _ _ _ hl, markAll_eq t _ hc' _ _ _ hl]
            apply List.map_congr_left
            intro y _
            unfold mark
            simp only [hx.2.mem_iff]
        exact ⟨⟨rfl, hab.locked, by simp only [hmark], g2⟩, g1⟩

/-- One projection on both backends. -/
theorem projStep_same (o : Ops F) (c : Config F) (hsc : ∀ w, c.scale w 1 = w) (hc : 1 ≤ c.projPart ∧ c.projPart < two64)
    (t : Nat) (a b b' : Proj F) (ms ms' : List SpikeMessage) (or : List Nat) (s' : Option (SynapticImpactMessage F))
    (ho : OneMessage ⟨a.syns.view, ms⟩) (hab : SameProjL t a b) (hm : List.Forall₂ SameSpikeMsg ms ms')
    (h : projStepM c t b ms' or = some (b', s')) :
    SameProjL (t + 1) (projStep o t a ms).1 b' ∧ SameImpacts (projStep o t a ms).2 s' := by
  have htasks : ∀ p : Delta.Proj F, Delta.tasks c.scale p t c.projPart ms' = Delta.tasks c.scale p t c.projPart ms := by
    intro p
    have h1 := ho.one
    simp only at h1
    cases hm with
    | nil => rfl
    | cons hx hrest =>
      cases hrest with
      | nil => exact (tasks_perm c.scale p t c.projPart _ _ hx.2).symm
      | cons _ _ => simp at h1
  unfold projStepM at h
  rw [← hab.syns] at h
  unfold projStep
  cases hs : a.syns with
  | additive _ _ _ _ => rw [hs] at h; cases h
  | delta p =>
    rw [hs] at h ho
    simp only at h ⊢
    rw [htasks] at h
    cases h1 : reorder or (Delta.tasks c.scale p t c.projPart ms) with
    | none => rw [h1] at h; cases h
    | some ts =>
      rw [h1] at h
      simp only [Option.some.injEq, Prod.mk.injEq] at h
      obtain ⟨g1, g2⟩ := C45_step_partial c.scale hsc a.ident t c.projPart hc.1 hc.2 p ms ho ts (reorder_perm _ _ _ h1)
        a.queue b.queue hab.queue
      rw [← h.1, ← h.2, ← hab.ident]
      exact ⟨⟨rfl, hab.locked, rfl, g2⟩, g1⟩
  | resource pops syns pre post =>
    rw [hs] at h ho
    simp only at h ⊢
    rw [htasks] at h
    cases h1 : reorder or (Delta.tasks c.scale (Syns.resource pops syns pre post).view t c.projPart ms) with
    | none => rw [h1] at h; cases h
    | some ts =>
      rw [h1] at h
      simp only [Option.some.injEq, Prod.mk.injEq] at h
      obtain ⟨g1, g2⟩ := C45_step_partial c.scale hsc a.ident t c.projPart hc.1 hc.2 _ ms ho ts (reorder_perm _ _ _ h1)
        a.queue b.queue hab.queue
      rw [← h.1, ← h.2, ← hab.ident]
      have hl : syns.length ≤ 2 ^ 63 := by simpa [Syns.view] using ho.size
      have hmark : touchAll t pre ms syns = markAll t c.projPart ms' syns := by
        have h1 := ho.one
        simp only at h1
        cases hm with
        | nil => rfl
        | cons hx hrest =>
          cases hrest with
          | nil =>
            rw [markAll_eq t _ hc _ _ _ hl, touchAll_one t pre _ syns ho.exact]
            apply List.map_congr_left
            intro y _
            unfold mark
            simp only [hx.2.mem_iff]
          | cons _ _ => simp at h1
      exact ⟨⟨rfl, hab.locked, by simp only [hmark], g2⟩, g1⟩

theorem projStep_stays (o : Ops F) (t : Nat) (j : Proj F) (ms : List SpikeMessage)
    (hn : ∀ a b d e, j.syns ≠ .additive a b d e) : Stays j (projStep o t j ms).1 := by
  unfold projStep
  cases hs : j.syns with
  | additive a b d e => exact absurd hs (hn _ _ _ _)
  | delta p =>
    simp only
    refine ⟨by rw [hs], ?_⟩
    intro hf
    unfold Proj.toR at hf ⊢
    rw [hs] at hf
    exact hf
  | resource pops syns pre post => exact resource_stays j pops syns _ pre post _ hs (touchAll_untimed t pre ms syns)

theorem projectAll_cons {o : Ops F} {c : Config F} {t : Nat} {heard : UID → List SpikeMessage} {j : Proj F} {js : List (Proj F)}
    {os : List (List Nat)} {x : List (Proj F) × List (SynapticImpactMessage F)}
    (h : projectAll (machine (N := N) (B := B) o) (threads o c) t heard (j :: js) os = some x) :
    ∃ (or : List Nat) (os' : List (List Nat)) (r : Proj F × Option (SynapticImpactMessage F)) (js' : List (Proj F))
      (ms : List (SynapticImpactMessage F)), projStepM c t j (heard j.ident.uid) or = some r ∧
      projectAll (machine (N := N) (B := B) o) (threads o c) t heard js os' = some (js', ms) ∧ x = (r.1 :: js', r.2.toList ++ ms) := by
  cases os with
  | nil => cases h
  | cons or os' =>
    rw [projectAll] at h
    have e : (threads (N := N) (B := B) o c).projStep t j (heard ((machine (N := N) (B := B) o).projUid j)) or =
      projStepM c t j (heard j.ident.uid) or := rfl
    rw [e] at h
    cases h1 : projStepM c t j (heard j.ident.uid) or with
    | none => rw [h1] at h; cases h
    | some r =>
      rw [h1] at h
      simp only at h
      cases h2 : projectAll (machine (N := N) (B := B) o) (threads o c) t heard js os' with
      | none => rw [h2] at h; cases h
      | some y =>
        obtain ⟨js', ms⟩ := y
        rw [h2] at h
        simp only [Option.some.injEq] at h
        exact ⟨or, os', r, js', ms, h1, h2, h.symm⟩

theorem projectAll_nil {o : Ops F} {c : Config F} {t : Nat} {heard : UID → List SpikeMessage}
    {os : List (List Nat)} {x : List (Proj F) × List (SynapticImpactMessage F)}
    (h : projectAll (machine (N := N) (B := B) o) (threads o c) t heard [] os = some x) : x = ([], []) := by
  cases os with
  | nil => cases h; rfl
  | cons => cases h

theorem projectAll_same (o : Ops F) (c c' : Config F) (hsc : c'.scale = c.scale) (hc : 1 ≤ c.projPart ∧ c.projPart < two64)
    (hc' : 1 ≤ c'.projPart ∧ c'.projPart < two64) (t : Nat) (heard heard' : UID → List SpikeMessage) {js js2 : List (Proj F)}
    (hr : List.Forall₂ (SameProjL t) js js2) : ∀ (os os' : List (List Nat)) (js1 js1' : List (Proj F))
    (ms ms' : List (SynapticImpactMessage F)),
    (∀ j ∈ js, j.syns.view.synapses.length ≤ 2 ^ 63 ∧ List.Forall₂ SameSpikeMsg (heard j.ident.uid) (heard' j.ident.uid)) →
    projectAll (machine (N := N) (B := B) o) (threads o c) t heard js os = some (js1, ms) →
    projectAll (machine (N := N) (B := B) o) (threads o c') t heard' js2 os' = some (js1', ms') →
    List.Forall₂ (SameProjL (t + 1)) js1 js1' ∧ List.Forall₂ SameImpactMsg ms ms' ∧ List.Forall₂ Stays js js1 := by
  induction hr with
  | nil =>
    intro os os' js1 js1' ms ms' _ h h'
    cases projectAll_nil h
    cases projectAll_nil h'
    exact ⟨.nil, .nil, .nil⟩
  | cons hab _ ih =>
    rename_i a b js js2 hrest
    intro os os' js1 js1' ms ms' hall h h'
    obtain ⟨or, os1, r, ks, ns, e1, e2, e3⟩ := projectAll_cons h
    obtain ⟨or', os1', r', ks', ns', f1, f2, f3⟩ := projectAll_cons h'
    cases e3
    cases f3
    obtain ⟨g1, g2⟩ := hall a (by simp)
    rw [← hab.ident] at f1
    obtain ⟨k1, k2⟩ := projStepM_same c c' hsc hc hc' t a b r.1 r'.1 _ _ or or' r.2 r'.2 g1 hab g2 e1 f1
    obtain ⟨i1, i2, i3⟩ := ih os1 os1' ks ks' ns ns' (fun j hj => hall j (by simp [hj])) e2 f2
    exact ⟨.cons k1 i1, forall₂_append (sameImpacts_toList k2) i2,
      .cons (projStepM_stays c hc t a r.1 _ or r.2 g1 e1).1 i3⟩

theorem projects_same (o : Ops F) (c : Config F) (hsc : ∀ w, c.scale w 1 = w) (hc : 1 ≤ c.projPart ∧ c.projPart < two64)
    (t : Nat) (heard heard' : UID → List SpikeMessage) {js js2 : List (Proj F)}
    (hr : List.Forall₂ (SameProjL t) js js2) : ∀ (os' : List (List Nat)) (js1' : List (Proj F))
    (ms' : List (SynapticImpactMessage F)),
    (∀ j ∈ js, OneMessage ⟨j.syns.view, heard j.ident.uid⟩ ∧ List.Forall₂ SameSpikeMsg (heard j.ident.uid) (heard' j.ident.uid)) →
    projectAll (machine (N := N) (B := B) o) (threads o c) t heard' js2 os' = some (js1', ms') →
    List.Forall₂ (SameProjL (t + 1)) (js.map fun j => (projStep o t j (heard j.ident.uid)).1) js1' ∧
    List.Forall₂ SameImpactMsg (js.flatMap fun j => (projStep o t j (heard j.ident.uid)).2.toList) ms' ∧
    List.Forall₂ Stays js (js.map fun j => (projStep o t j (heard j.ident.uid)).1) := by
  induction hr with
  | nil =>
    intro os' js1' ms' _ h'
    cases projectAll_nil h'
    exact ⟨.nil, .nil, .nil⟩
  | cons hab _ ih =>
    rename_i a b js js2 hrest
    intro os' js1' ms' hall h'
    obtain ⟨or', os1', r', ks', ns', f1, f2, f3⟩ := projectAll_cons h'
    cases f3
    obtain ⟨g1, g2⟩ := hall a (by simp)
    rw [← hab.ident] at f1
    obtain ⟨k1, k2⟩ := projStep_same o c hsc hc t a b r'.1 _ _ or' r'.2 g1 hab g2 f1
    obtain ⟨i1, i2, i3⟩ := ih os1' ks' ns' (fun j hj => hall j (by simp [hj])) f2
    rw [List.map_cons, List.flatMap_cons]
    refine ⟨.cons k1 i1, forall₂_append (sameImpacts_toList k2) i2, .cons (projStep_stays o t a _ ?_) i3⟩
    intro x y z w he
    unfold projStepM at f1
    rw [← hab.syns, he] at f1
    cases f1

/-! ## The populations' part of a step -/

omit [Field F] [LinearOrder F] in
theorem SameSpikes.symm {a b : Option SpikeMessage} (h : SameSpikes a b) : SameSpikes b a := by
  rcases h with ⟨h1, h2⟩ | ⟨x, y, h1, h2, h3, h4⟩
  · exact Or.inl ⟨h2, h1⟩
  · exact Or.inr ⟨y, x, h2, h1, h3.symm, h4.symm⟩

theorem flat_same {ss ss' : List (Option SpikeMessage)} (h : List.Forall₂ SameSpikes ss ss') :
    List.Forall₂ SameSpikeMsg (ss'.flatMap Option.toList) (ss.flatMap Option.toList) := by
  induction h with
  | nil => exact .nil
  | cons h _ ih =>
    rw [List.flatMap_cons, List.flatMap_cons]
    exact forall₂_append (sameSpikes_toList h) ih

theorem _root_.Knp.Props.SameSpikeMsg.symm' {a b : SpikeMessage} (h : SameSpikeMsg a b) : SameSpikeMsg b a := ⟨h.1.symm, h.2.symm⟩

theorem _root_.Knp.Props.SameSpikeMsg.trans' {a b d : SpikeMessage} (h : SameSpikeMsg a b) (h' : SameSpikeMsg b d) : SameSpikeMsg a d :=
  ⟨h.1.trans h'.1, h.2.trans h'.2⟩

theorem forall₂_symm {α β : Type} {R : α → β → Prop} {S : β → α → Prop} (hR : ∀ x y, R x y → S y x) {l : List α} {l' : List β}
    (h : List.Forall₂ R l l') : List.Forall₂ S l' l := by
  induction h with
  | nil => exact .nil
  | cons h _ ih => exact .cons (hR _ _ h) ih

theorem forall₂_trans {α β γ : Type} {R : α → β → Prop} {S : β → γ → Prop} {T : α → γ → Prop} (hR : ∀ x y z, R x y → S y z → T x z)
    {l : List α} {l' : List β} (h : List.Forall₂ R l l') : ∀ {l'' : List γ}, List.Forall₂ S l' l'' → List.Forall₂ T l l'' := by
  induction h with
  | nil => intro l'' h'; cases h'; exact .nil
  | cons h _ ih =>
    intro l'' h'
    cases h' with
    | cons h1 h2 => exact .cons (hR _ _ _ h h1) (ih h2)

/-- The training tasks one after another, as on one thread. -/
def canon (o : Ops F) (c : Config F) (t : Nat) (sso : List (Option SpikeMessage)) (ps : List (Pop N B F)) (js : List (Proj F)) :
    Outcome (List (Pop N B F) × List (Proj F)) :=
  (List.range ps.length).foldlM (trainTask (threads o c) t sso) (ps, js)

theorem phase_canon (o : Ops F) (c : Config F) (t : Nat) (ss sso : List (Option SpikeMessage)) (ps : List (Pop N B F))
    (js : List (Proj F)) (order : List Nat) (x : Outcome (List (Pop N B F) × List (Proj F)))
    (hs : List.Forall₂ SameSpikes ss sso) (hr : Ready sso (ps, js))
    (h : trainPhase (threads o c) t ss ps js order = some x) : x = canon o c t sso ps js := by
  unfold trainPhase at h
  split at h
  · rename_i hp
    simp only [Option.some.injEq] at h
    have hs' := forall₂_symm (S := SameSpikes) (fun _ _ => SameSpikes.symm) hs
    rw [← h, ← tasks_spikes o c t sso ss hs' order (ps, js) hr]
    exact tasks_order o c t sso hp (hp.nodup_iff.2 List.nodup_range) (ps, js) hr
  · cases h

theorem popStep_split {o : Ops F} {t : Nat} {p p1 : Pop N B F} {js js1 : List (Proj F)} {ms : List (SynapticImpactMessage F)}
    {s : Option SpikeMessage} (h : popStep o t p js ms = .ok ((p1, js1), s)) :
    ∃ p0, computeS t p ms = .ok (p0, s) ∧ trainM o t p0 js s = .ok (p1, js1) := by
  cases p with
  | plain u k ns =>
    simp only [popStep] at h
    cases h1 : stepPopulation k u t ns ms with
    | throw w => rw [h1] at h; cases h
    | ub => rw [h1] at h; cases h
    | ok r =>
      rw [h1] at h
      simp only [Outcome.ok.injEq, Prod.mk.injEq] at h
      refine ⟨.plain u k r.1, ?_, ?_⟩
      · simp only [computeS, h1, computed, h.2]
      · simp only [trainM]
        rw [h.1.1, h.1.2]
  | trained u k b ns =>
    simp only [popStep] at h
    cases h1 : stepPopulation k u t ns ms with
    | throw w => rw [h1] at h; cases h
    | ub => rw [h1] at h; cases h
    | ok r =>
      rw [h1] at h
      simp only at h
      cases h2 : train o b u (spikedIn r.2) t ⟨r.1, js.map Proj.toR⟩ with
      | throw w => rw [h2] at h; cases h
      | ub => rw [h2] at h; cases h
      | ok st =>
        rw [h2] at h
        simp only [Outcome.ok.injEq, Prod.mk.injEq] at h
        refine ⟨.trained u k b r.1, ?_, ?_⟩
        · simp only [computeS, h1, computed, h.2]
        · simp only [trainM]
          rw [← h.2, h2]
          simp only
          rw [h.1.1, h.1.2]

/-- On one thread populations compute and train in turn; that is the same as computing all and training all. -/
theorem learnPops_split (o : Ops F) (c : Config F) (t : Nat) (given : UID → List (SynapticImpactMessage F)) :
    ∀ (ps : List (Pop N B F)) (js : List (Proj F)) (ps1 : List (Pop N B F)) (js1 : List (Proj F)) (ss : List SpikeMessage),
    learnPops (machine o) t given ps js = .ok ((ps1, js1), ss) →
    ∃ (ps0 : List (Pop N B F)) (sso : List (Option SpikeMessage)), computeAllS t given ps = .ok (ps0, sso) ∧
      ss = sso.flatMap Option.toList ∧ ∀ (pre : List (Pop N B F)) (sp : List (Option SpikeMessage)), sp.length = pre.length →
        (List.range' pre.length ps0.length).foldlM (trainTask (threads o c) t (sp ++ sso)) (pre ++ ps0, js) =
          .ok (pre ++ ps1, js1) := by
  intro ps
  induction ps with
  | nil =>
    intro js ps1 js1 ss h
    cases h
    exact ⟨[], [], rfl, rfl, fun pre sp _ => rfl⟩
  | cons p ps ih =>
    intro js ps1 js1 ss h
    rw [learnPops] at h
    cases h1 : popStep o t p js (given p.uid) with
    | throw w =>
      have : (machine (N := N) (B := B) o).popStep t p js (given ((machine o).popUid p)) = _ := h1
      rw [this] at h; cases h
    | ub =>
      have : (machine (N := N) (B := B) o).popStep t p js (given ((machine o).popUid p)) = _ := h1
      rw [this] at h; cases h
    | ok x =>
      obtain ⟨⟨q, ks⟩, s⟩ := x
      have : (machine (N := N) (B := B) o).popStep t p js (given ((machine o).popUid p)) = _ := h1
      rw [this] at h
      simp only at h
      cases h2 : learnPops (machine o) t given ps ks with
      | throw w => rw [h2] at h; cases h
      | ub => rw [h2] at h; cases h
      | ok y =>
        obtain ⟨⟨ps2, js2⟩, ss2⟩ := y
        rw [h2] at h
        simp only [Outcome.ok.injEq, Prod.mk.injEq] at h
        obtain ⟨⟨rfl, rfl⟩, rfl⟩ := h
        obtain ⟨ps0, sso, e1, e2, e3⟩ := ih ks ps2 js2 ss2 h2
        obtain ⟨p0, f1, f2⟩ := popStep_split h1
        refine ⟨p0 :: ps0, s :: sso, ?_, ?_, ?_⟩
        · rw [computeAllS, f1, e1]
        · rw [List.flatMap_cons, e2]
        · intro pre sp hl
          rw [List.length_cons, List.range'_succ, List.foldlM_cons]
          have hp : (pre ++ p0 :: ps0)[pre.length]? = some p0 := by simp
          have hs : (sp ++ s :: sso)[pre.length]? = some s := by rw [← hl]; simp
          rw [trainTask_eq o c t _ (pre ++ p0 :: ps0, js) pre.length p0 s hp hs]
          simp only
          rw [f2]
          have hset : (pre ++ p0 :: ps0).set pre.length q = pre ++ q :: ps0 := by simp
          simp only [Outcome.bind, hset]
          have := e3 (pre ++ [q]) (sp ++ [s]) (by simp [hl])
          simp only [List.length_append, List.length_cons, List.length_nil, Nat.zero_add, List.append_assoc,
            List.singleton_append] at this
          exact this

/-- Everything the two-run arguments need of a projection. -/
def JOk (j : Proj F) : Prop := j.syns.view.synapses.length ≤ 2 ^ 63 ∧ FindOk j.toR

omit [Field F] [LinearOrder F] in
theorem JOk.stays {j j' : Proj F} (h : JOk j) (hs : Stays j j') : JOk j' :=
  ⟨by rw [skeleton_length hs.1]; exact h.1, hs.2 h.2⟩

theorem allTrained_mem {o : Ops F} {js js' : List (Proj F)} (h : AllTrained o js js') {j' : Proj F} (hj : j' ∈ js') :
    ∃ j ∈ js, Trained o j j' := by
  obtain ⟨n, hn⟩ := List.getElem?_of_mem hj
  have hl : n < js.length := by
    have := (List.getElem?_eq_some_iff.1 hn).1
    rw [h.1] at this
    exact this
  obtain ⟨x, h1, h2⟩ := h.2 n js[n] (List.getElem?_eq_getElem hl)
  rw [hn] at h1
  cases h1
  exact ⟨js[n], List.getElem_mem hl, h2⟩

theorem jok_trained {o : Ops F} {js js' : List (Proj F)} (hj : ∀ j ∈ js, JOk j) (h : AllTrained o js js')
    (hf : ∀ r ∈ js'.map Proj.toR, FindOk r) : ∀ j ∈ js', JOk j := by
  intro j' hj'
  obtain ⟨j, h1, h2⟩ := allTrained_mem h hj'
  exact ⟨by rw [skeleton_length h2.skeleton]; exact (hj j h1).1, hf _ (List.mem_map.2 ⟨j', hj', rfl⟩)⟩

omit [Field F] [LinearOrder F] in
theorem jok_stays {js js' : List (Proj F)} (h : List.Forall₂ Stays js js') (hj : ∀ j ∈ js, JOk j) : ∀ j ∈ js', JOk j := by
  induction h with
  | nil => exact hj
  | cons h _ ih =>
    intro x hx
    rcases List.mem_cons.1 hx with rfl | hx
    · exact (hj _ (by simp)).stays h
    · exact ih (fun y hy => hj y (by simp [hy])) x hx

end Knp.Learn
