import Verif.Spec.Sonata
import Mathlib.Data.List.Forall2

/-!
# C75, C76: network files and type tables
-/

namespace Knp.Props
open Knp Knp.Sonata Knp.Spec

/-! ## C75 -/

section
variable {V : Type}

private theorem lookup_cells (h : Cell → List V) (cells : List Cell) (c : Cell) (hm : c ∈ cells)
    (hn : (cells.map (fun x => x.1)).Nodup) : (cells.map (fun x => (x.1, h x))).lookup c.1 = some (h c) := by
  induction cells with
  | nil => simp at hm
  | cons d cells ih =>
    rw [List.map_cons, List.nodup_cons] at hn
    rw [List.map_cons, List.lookup_cons]
    rcases List.mem_cons.1 hm with rfl | hm'
    · simp
    · have hne : ¬ c.1 = d.1 := by
        intro he
        exact hn.1 (he ▸ List.mem_map_of_mem (f := fun x : Cell => x.1) hm')
      have : (c.1 == d.1) = false := by simpa using hne
      simp only [this]
      exact ih hm' hn.2

private theorem assign_map {α : Type} (xs : List α) (h : α → Params V) (v : α → V) (f : String) :
    assign f (xs.map h) (xs.map v) = xs.map (fun x => (h x).set f (v x)) := by
  induction xs with
  | nil => rfl
  | cons x xs ih => simp [assign, ih]

/-- Members in `l` from `x`, others from `d`. -/
private def mask (l : List String) (d x : Params V) : Params V := fun f => if f ∈ l then x f else d f

private theorem mask_set (l : List String) (d x : Params V) (f : String) :
    (mask l d x).set f (x f) = mask (l ++ [f]) d x := by
  funext g
  unfold mask Params.set
  by_cases hg : g = f
  · subst hg; simp
  · simp [hg]

private theorem load_fold {α : Type} (xs : List α) (get : α → Params V) (g : Group V) (d : Params V) (size : Nat) (cells : List Cell)
    (hr : ∀ c ∈ cells, readParam g c.1 size (d c.2) = xs.map (fun x => get x c.2)) (l : List String) :
    cells.foldl (fun target c => assign c.2 target (readParam g c.1 size (d c.2))) (xs.map (fun x => mask l d (get x)))
      = xs.map (fun x => mask (l ++ cells.map (fun c => c.2)) d (get x)) := by
  induction cells generalizing l with
  | nil => simp
  | cons c cells ih =>
    rw [List.foldl_cons, hr c (List.mem_cons_self ..), assign_map]
    simp only [mask_set]
    rw [ih (fun c' h => hr c' (List.mem_cons_of_mem _ h))]
    simp

private theorem loadParams_eq {α : Type} (xs : List α) (get : α → Params V) (g : Group V) (d : Params V) (saved loaded : List Cell)
    (hd : g.data = saved.map (fun c => (c.1, xs.map (fun x => get x c.2))))
    (hn : (saved.map (fun x => x.1)).Nodup) (hsub : ∀ c ∈ loaded, c ∈ saved) :
    loadParams g loaded xs.length d = xs.map (fun x => mask (loaded.map (fun c => c.2)) d (get x)) := by
  have hr : ∀ c ∈ loaded, readParam g c.1 xs.length (d c.2) = xs.map (fun x => get x c.2) := by
    intro c hc
    unfold readParam
    rw [hd, lookup_cells (fun c => xs.map (fun x => get x c.2)) saved c (hsub c hc) hn]
  have h0 : List.replicate xs.length d = xs.map (fun x => mask [] d (get x)) := by
    have : (fun x : α => mask [] d (get x)) = fun _ => d := by
      funext x f; simp [mask]
    rw [this, List.map_const']
  unfold loadParams
  rw [h0, load_fold xs get g d xs.length loaded hr []]
  simp

private theorem ntable (t : NType) : (t.saved.map (fun x => x.1)).Nodup ∧ (∀ c ∈ t.loaded, c ∈ t.saved) ∧
    (∀ f ∈ t.fields, f ∈ lostFields t ↔ f ∉ t.loaded.map (fun c => c.2)) ∧ typeOfId t.id = some t := by
  cases t <;> decide +kernel

private theorem stable (t : SType) (h : t ≠ .additive) : (t.saved.map (fun x => x.1)).Nodup ∧ (∀ c ∈ t.loaded, c ∈ t.saved) ∧
    (∀ f ∈ t.fields, f ∈ t.loaded.map (fun c => c.2)) ∧ synTypeOfId t.id = some t := by
  cases t
  · decide +kernel
  · exact absurd rfl h
  · decide +kernel

/-- A population after saving and loading. -/
private def popBack (dn : NType → Params V) (p : Pop V) : Pop V :=
  ⟨p.uid, p.type, p.neurons.map (mask (p.type.loaded.map (fun c => c.2)) (dn p.type))⟩

private def projBack (ds : SType → Params V) (p : Proj V) : Proj V :=
  ⟨p.uid, p.pre, p.post, p.type, p.locked,
    p.synapses.map (fun s => ⟨s.source, s.target, mask (p.type.loaded.map (fun c => c.2)) (ds p.type) s.data⟩)⟩

private def projGroup (p : Proj V) : Group V :=
  { name := p.uid, typeIds := List.replicate p.synapses.length p.type.id,
    data := p.type.saved.map (fun c => (c.1, p.synapses.map (fun s => s.data c.2))),
    sources := p.synapses.map (fun s => s.source), targets := p.synapses.map (fun s => s.target),
    pre := p.pre, post := p.post, isLocked := some p.locked }

private theorem loadPops_map (dn : NType → Params V) (l : List (Pop V)) (h : ∀ p ∈ l, p.neurons ≠ []) :
    loadPops dn (l.map savePop) = .ok (l.map (popBack dn)) := by
  induction l with
  | nil => rfl
  | cons p l ih =>
    have hne := h p (List.mem_cons_self ..)
    obtain ⟨x, xs, hx⟩ := List.exists_cons_of_ne_nil hne
    have hid : (savePop p).typeIds = p.type.id :: List.replicate xs.length p.type.id := by
      simp [savePop, hx, List.replicate_succ]
    have hlen : (savePop p).typeIds.length = p.neurons.length := by simp [savePop]
    obtain ⟨h1, h2, _, h4⟩ := ntable p.type
    rw [List.map_cons]
    unfold loadPops
    simp only [hid]
    rw [ih (fun q hq => h q (List.mem_cons_of_mem _ hq)), h4]
    simp only [List.map_cons]
    rw [← hid, hlen, loadParams_eq p.neurons id (savePop p) (dn p.type) p.type.saved p.type.loaded rfl h1 h2]
    rfl

private theorem zipSyns_map (l : List (Syn V)) (h : Syn V → Params V) :
    zipSyns (l.map h) (l.map (fun s => s.source)) (l.map (fun s => s.target)) = l.map (fun s => ⟨s.source, s.target, h s⟩) := by
  induction l with
  | nil => rfl
  | cons s l ih => simp [zipSyns, ih]

private theorem loadProjs_map (ds : SType → Params V) (l : List (Proj V)) (h : ∀ p ∈ l, p.synapses ≠ []) (ha : ∀ p ∈ l, p.type ≠ .additive) :
    loadProjs ds (l.map projGroup) = .ok (l.map (projBack ds)) := by
  induction l with
  | nil => rfl
  | cons p l ih =>
    have hne := h p (List.mem_cons_self ..)
    obtain ⟨x, xs, hx⟩ := List.exists_cons_of_ne_nil hne
    have hid : (projGroup p).typeIds = p.type.id :: List.replicate xs.length p.type.id := by
      simp [projGroup, hx, List.replicate_succ]
    have hlen : (projGroup p).typeIds.length = p.synapses.length := by simp [projGroup]
    obtain ⟨h1, h2, _, h4⟩ := stable p.type (ha p (List.mem_cons_self ..))
    rw [List.map_cons]
    unfold loadProjs
    simp only [hid]
    rw [ih (fun q hq => h q (List.mem_cons_of_mem _ hq)) (fun q hq => ha q (List.mem_cons_of_mem _ hq)), h4]
    simp only [List.map_cons]
    rw [← hid, hlen, loadParams_eq p.synapses (fun s => s.data) (projGroup p) (ds p.type) p.type.saved p.type.loaded rfl h1 h2]
    have := zipSyns_map p.synapses (fun s => mask (p.type.loaded.map (fun c => c.2)) (ds p.type) s.data)
    simp only [projGroup, this, Option.getD_some, projBack]

private theorem savePops_eq (l : List (Pop V)) (acc : List (Group V))
    (hn : (l.map (fun p => p.uid)).Nodup) (hd : ∀ p ∈ l, ∀ g ∈ acc, g.name ≠ p.uid) :
    savePops l acc = .ok (acc ++ l.map savePop) := by
  induction l generalizing acc with
  | nil => simp [savePops]
  | cons p l ih =>
    rw [List.map_cons, List.nodup_cons] at hn
    unfold savePops
    rw [if_neg (by simpa using hd p (List.mem_cons_self ..)), ih _ hn.2]
    · simp
    · intro q hq g hg
      rcases List.mem_append.1 hg with hg | hg
      · exact hd q (List.mem_cons_of_mem _ hq) g hg
      · rw [List.mem_singleton.1 hg]
        intro he
        apply hn.1
        have : p.uid = q.uid := he
        rw [this]
        exact List.mem_map_of_mem (f := fun p : Pop V => p.uid) hq

private theorem saveProjs_eq (l : List (Proj V)) (acc : List (Group V)) (ha : ∀ p ∈ l, p.type ≠ .additive)
    (hn : (l.map (fun p => p.uid)).Nodup) (hd : ∀ p ∈ l, ∀ g ∈ acc, g.name ≠ p.uid) :
    saveProjs l acc = .ok (acc ++ l.map projGroup) := by
  induction l generalizing acc with
  | nil => simp [saveProjs]
  | cons p l ih =>
    rw [List.map_cons, List.nodup_cons] at hn
    have hs : saveProj p = .ok (projGroup p) := by
      unfold saveProj
      rw [if_neg (ha p (List.mem_cons_self ..))]; rfl
    unfold saveProjs
    simp only [hs]
    rw [if_neg (by simpa [projGroup] using hd p (List.mem_cons_self ..)), ih _ (fun q hq => ha q (List.mem_cons_of_mem _ hq)) hn.2]
    · simp
    · intro q hq g hg
      rcases List.mem_append.1 hg with hg | hg
      · exact hd q (List.mem_cons_of_mem _ hq) g hg
      · rw [List.mem_singleton.1 hg]
        intro he
        apply hn.1
        have : p.uid = q.uid := he
        rw [this]
        exact List.mem_map_of_mem (f := fun p : Proj V => p.uid) hq

private theorem insertBy_map {α β : Type} (le : β → β → Bool) (f : α → β) (a : α) (l : List α) :
    insertBy le (f a) (l.map f) = (insertBy (fun x y => le (f x) (f y)) a l).map f := by
  induction l with
  | nil => rfl
  | cons b l ih =>
    simp only [List.map_cons, insertBy]
    split
    · simp
    · simp [ih]

private theorem sortBy_map {α β : Type} (le : β → β → Bool) (f : α → β) (l : List α) :
    sortBy le (l.map f) = (sortBy (fun x y => le (f x) (f y)) l).map f := by
  induction l with
  | nil => rfl
  | cons a l ih => simp only [List.map_cons, sortBy]; rw [ih, insertBy_map]

private theorem sorted_uids {α : Type} (u : α → Nat) (l : List α) (hn : (l.map u).Nodup) :
    ((sortBy (fun x y => decide (u x ≤ u y)) l)).Pairwise (fun a b => u a < u b) := by
  have h1 := sortBy_sorted (fun x y : α => decide (u x ≤ u y)) (by intro a b; simp; omega) (by intro a b c; simp; omega) l
  have h2 : ((sortBy (fun x y => decide (u x ≤ u y)) l).map u).Nodup := ((sortBy_perm _ l).map u).nodup_iff.2 hn
  have h3 := List.pairwise_map.1 h2
  refine (h1.and h3).imp ?_
  intro a b h
  have := h.1
  simp at this
  omega

private theorem popBack_same (dn : NType → Params V) (p : Pop V) : SamePop dn p (popBack dn p) := by
  refine ⟨rfl, rfl, ?_⟩
  unfold popBack
  rw [List.forall₂_map_right_iff, List.forall₂_same]
  intro x _ f hf
  have h3 := (ntable p.type).2.2.1 f hf
  refine ⟨fun h => ?_, fun h => ?_⟩
  · unfold mask
    rw [if_pos (Classical.not_not.1 (fun hc => h (h3.2 hc)))]
  · unfold mask
    rw [if_neg (h3.1 h)]

private theorem projBack_same (ds : SType → Params V) (p : Proj V) (ha : p.type ≠ .additive) : SameProj p (projBack ds p) := by
  refine ⟨rfl, rfl, rfl, rfl, rfl, ?_⟩
  unfold projBack
  rw [List.forall₂_map_right_iff, List.forall₂_same]
  intro s _
  refine ⟨rfl, rfl, fun f hf => ?_⟩
  simp only [mask]
  rw [if_pos ((stable p.type ha).2.2.1 f hf)]

/-- C75 (partial: the lost members are listed in `lostFields`, the order becomes that of the UIDs, and networks outside
`Savable` fail).  A savable network is saved and loaded back: same UID, the same populations and projections in UID order, every
declared member of every neuron that is not lost, every member and end of every synapse, lock flags. -/
theorem C75_roundtrip_partial (dn : NType → Params V) (ds : SType → Params V) (fresh : UID) (n : Net V) (h : Savable n) :
    ∃ file n', saveNetwork n = .ok file ∧ loadNetwork dn ds fresh file = .ok n' ∧ n'.uid = n.uid ∧
      (∃ ps, ps.Perm n.populations ∧ ps.Pairwise (fun a b => a.uid < b.uid) ∧ List.Forall₂ (SamePop dn) ps n'.populations) ∧
      (∃ js, js.Perm n.projections ∧ js.Pairwise (fun a b => a.uid < b.uid) ∧ List.Forall₂ SameProj js n'.projections) := by
  let ps := sortBy (fun x y : Pop V => decide (x.uid ≤ y.uid)) n.populations
  let js := sortBy (fun x y : Proj V => decide (x.uid ≤ y.uid)) n.projections
  have hp : ps.Perm n.populations := sortBy_perm _ _
  have hj : js.Perm n.projections := sortBy_perm _ _
  refine ⟨⟨some n.uid, ps.map savePop, js.map projGroup⟩, ⟨n.uid, ps.map (popBack dn), js.map (projBack ds)⟩, ?_, ?_, rfl,
    ⟨ps, hp, sorted_uids (fun p : Pop V => p.uid) _ h.popUids, ?_⟩, ⟨js, hj, sorted_uids (fun p : Proj V => p.uid) _ h.projUids, ?_⟩⟩
  · unfold saveNetwork
    rw [saveProjs_eq n.projections [] h.supported h.projUids (by simp), savePops_eq n.populations [] h.popUids (by simp)]
    have hc : (n.populations.isEmpty || n.projections.isEmpty) = false := by
      simp [h.hasPopulation, h.hasProjection]
    simp only [hc, Bool.false_eq_true, if_false, List.nil_append]
    rw [sortBy_map byName savePop, sortBy_map byName projGroup]
    rfl
  · unfold loadNetwork
    simp only
    rw [loadPops_map dn ps (fun p hm => h.neurons p (hp.mem_iff.1 hm)),
      loadProjs_map ds js (fun p hm => h.synapses p (hj.mem_iff.1 hm)) (fun p hm => h.supported p (hj.mem_iff.1 hm))]
    rfl
  · rw [List.forall₂_map_right_iff, List.forall₂_same]
    exact fun p _ => popBack_same dn p
  · rw [List.forall₂_map_right_iff, List.forall₂_same]
    exact fun p hm => projBack_same ds p (h.supported p (hj.mem_iff.1 hm))

end

/-- A network of two populations and a trainable projection, for the examples. -/
def exNet : Net Nat :=
  ⟨7, [⟨5, .lif, [fun f => if f = "potential_reset_value_" then 3 else 1]⟩, ⟨2, .blifat, [fun _ => 8, fun _ => 9]⟩],
    [⟨11, 5, 2, .resource, false, [⟨0, 1, fun _ => 4⟩, ⟨0, 0, fun _ => 6⟩]⟩]⟩

example : Savable exNet := by
  refine ⟨by decide, by decide, ?_, ?_, ?_, by decide, by decide⟩ <;> (simp [exNet])

/-- Whether loading the saved network succeeds and the result satisfies `q`. -/
def afterReload (dn : NType → Params Nat) (n : Net Nat) (q : Net Nat → Bool) : Bool :=
  match saveNetwork n with
  | .ok f => match loadNetwork dn (fun _ _ => 0) 0 f with
    | .ok n' => q n'
    | _ => false
  | _ => false

/-- C75 is false: the reset potential of a LIF neuron is replaced by the default. -/
theorem C75_lost_field_refuted : Savable exNet ∧
    exNet.populations.head?.bind (fun p => p.neurons.head?.map (fun x => x "potential_reset_value_")) = some 3 ∧
    afterReload (fun _ _ => 0) exNet (fun n' => n'.populations.any (fun p => p.uid == 5 &&
      p.neurons.map (fun x => x "potential_reset_value_") == [0])) = true := by
  refine ⟨?_, by decide +kernel, by decide +kernel⟩
  refine ⟨by decide, by decide, ?_, ?_, ?_, by decide, by decide⟩ <;> (simp [exNet])

/-- Every listed member is really lost: for each type and each lost member there is a network that comes back without it. -/
theorem C75_every_lost_field (t : NType) (f : String) (h : f ∈ lostFields t) : f ∈ t.fields ∧
    afterReload (fun _ _ => 0) ⟨1, [⟨2, t, [fun _ => 5]⟩], [⟨3, 2, 2, .delta, true, [⟨0, 0, fun _ => 0⟩]⟩]⟩
      (fun n' => n'.populations.map (fun p => p.neurons.map (fun x => x f)) == [[0]]) = true := by
  have key : ∀ t' ∈ [NType.blifat, .resBlifat, .altai, .resAltai, .lif], ∀ f' ∈ lostFields t', f' ∈ t'.fields ∧
    afterReload (fun _ _ => 0) ⟨1, [⟨2, t', [fun _ => 5]⟩], [⟨3, 2, 2, .delta, true, [⟨0, 0, fun _ => 0⟩]⟩]⟩
      (fun n' => n'.populations.map (fun p => p.neurons.map (fun x => x f')) == [[0]]) = true := by decide +kernel
  exact key t (by cases t <;> simp) f h

/-- C75 is false: the order of populations is not kept. -/
theorem C75_order_refuted : exNet.populations.map (fun p => p.uid) = [5, 2] ∧
    afterReload (fun _ _ => 0) exNet (fun n' => n'.populations.map (fun p => p.uid) == [2, 5]) = true := by
  decide +kernel

section
variable {V : Type}

/-- C75 is false: a network without populations, or without projections, cannot be saved. -/
theorem C75_empty_network_refuted (n : Net V) (h : n.populations = [] ∨ n.projections = []) : ∀ f, saveNetwork n ≠ .ok f := by
  intro f
  unfold saveNetwork
  have hc : (n.populations.isEmpty || n.projections.isEmpty) = true := by
    rcases h with h | h <;> simp [h]
  split
  · simp
  · simp
  · split
    · simp
    · simp
    · rw [if_pos hc]; simp

example : (⟨1, [⟨2, .lif, [fun _ => 0]⟩], []⟩ : Net Nat).projections = [] := rfl

private theorem saveProjs_additive (l : List (Proj V)) (acc : List (Group V)) (h : ∃ p ∈ l, p.type = .additive) :
    ∃ e, saveProjs l acc = .throw e := by
  induction l generalizing acc with
  | nil => simp at h
  | cons p l ih =>
    unfold saveProjs saveProj
    by_cases hp : p.type = .additive
    · rw [if_pos hp]; exact ⟨_, rfl⟩
    · rw [if_neg hp]
      simp only
      split
      · exact ⟨_, rfl⟩
      · apply ih
        obtain ⟨q, hq, hqa⟩ := h
        rcases List.mem_cons.1 hq with rfl | hq
        · exact absurd hqa hp
        · exact ⟨q, hq, hqa⟩

/-- C75 is false: a network with an additive-STDP projection is refused with an exception. -/
theorem C75_additive_refuted (n : Net V) (h : ∃ p ∈ n.projections, p.type = .additive) : ∃ e, saveNetwork n = .throw e := by
  obtain ⟨e, he⟩ := saveProjs_additive n.projections [] h
  exact ⟨e, by unfold saveNetwork; rw [he]⟩

end

/-- C75 is false: a network with an empty population (or projection) is saved, but loading it reads the first element of an
empty vector. -/
theorem C75_empty_population_ub :
    (match saveNetwork (⟨1, [⟨2, .lif, []⟩], [⟨3, 2, 2, .delta, true, [⟨0, 0, fun _ => 0⟩]⟩]⟩ : Net Nat) with
      | .ok f => (match loadNetwork (fun _ _ => 0) (fun _ _ => 0) 0 f with | .ub => true | _ => false)
      | _ => false) = true ∧
    (match saveNetwork (⟨1, [⟨2, .lif, [fun _ => 0]⟩], [⟨3, 2, 2, .delta, true, []⟩]⟩ : Net Nat) with
      | .ok f => (match loadNetwork (fun _ _ => 0) (fun _ _ => 0) 0 f with | .ub => true | _ => false)
      | _ => false) = true := by
  decide +kernel

section Total
variable {V : Type}

private theorem loadPops_shape (dn : NType → Params V) (gs : List (Group V)) :
    ((∃ g ∈ gs, g.typeIds = []) → loadPops dn gs = .ub) ∧
    ((∀ g ∈ gs, g.typeIds ≠ []) → ∃ ps, loadPops dn gs = .ok ps ∧
      ps.map (fun p => (p.uid, p.type, p.neurons.length)) =
        gs.filterMap (fun g => (g.typeIds.head?.bind typeOfId).map (fun t => (g.name, t, g.typeIds.length)))) := by
  have hass : ∀ (f : String) (xs : List (Params V)) (vs : List V), (assign f xs vs).length = xs.length := by
    intro f xs
    induction xs with
    | nil => intro vs; cases vs <;> rfl
    | cons x xs ih => intro vs; cases vs with
      | nil => rfl
      | cons v vs => simp [assign, ih]
  have hlen : ∀ (g : Group V) (cells : List Cell) (size : Nat) (d : Params V), (loadParams g cells size d).length = size := by
    intro g cells size d
    unfold loadParams
    have : ∀ (l : List (Params V)), (cells.foldl (fun target c => assign c.2 target (readParam g c.1 size (d c.2))) l).length = l.length := by
      induction cells with
      | nil => intro l; rfl
      | cons c cs ih => intro l; rw [List.foldl_cons, ih, hass]
    rw [this, List.length_replicate]
  induction gs with
  | nil => exact ⟨fun ⟨g, h, _⟩ => (by cases h), fun _ => ⟨[], rfl, rfl⟩⟩
  | cons g gs ih =>
    cases hg : g.typeIds with
    | nil =>
      refine ⟨fun _ => by unfold loadPops; simp only [hg], fun h => absurd hg (h g (by simp))⟩
    | cons i is =>
      refine ⟨?_, ?_⟩
      · rintro ⟨x, hx, he⟩
        rcases List.mem_cons.1 hx with rfl | hx
        · rw [hg] at he; cases he
        · unfold loadPops; simp only [hg, ih.1 ⟨x, hx, he⟩]
      · intro h
        obtain ⟨ps, h1, h2⟩ := ih.2 (fun x hx => h x (by simp [hx]))
        unfold loadPops
        simp only [hg, h1, List.filterMap_cons, List.head?_cons, Option.bind_some]
        cases typeOfId i with
        | none => exact ⟨ps, rfl, h2⟩
        | some t => exact ⟨_, rfl, by simp only [List.map_cons, h2, hlen, Option.map_some]⟩

private theorem loadProjs_shape (ds : SType → Params V) (gs : List (Group V)) :
    ((∃ g ∈ gs, g.typeIds = []) → loadProjs ds gs = .ub) ∧
    ((∀ g ∈ gs, g.typeIds ≠ []) → ∃ ps, loadProjs ds gs = .ok ps ∧
      ps.map (fun p => (p.uid, p.type, p.pre, p.post, p.locked)) =
        gs.filterMap (fun g => (g.typeIds.head?.bind synTypeOfId).map (fun t => (g.name, t, g.pre, g.post, g.isLocked.getD true)))) := by
  induction gs with
  | nil => exact ⟨fun ⟨g, h, _⟩ => (by cases h), fun _ => ⟨[], rfl, rfl⟩⟩
  | cons g gs ih =>
    cases hg : g.typeIds with
    | nil =>
      refine ⟨fun _ => by unfold loadProjs; simp only [hg], fun h => absurd hg (h g (by simp))⟩
    | cons i is =>
      refine ⟨?_, ?_⟩
      · rintro ⟨x, hx, he⟩
        rcases List.mem_cons.1 hx with rfl | hx
        · rw [hg] at he; cases he
        · unfold loadProjs; simp only [hg, ih.1 ⟨x, hx, he⟩]
      · intro h
        obtain ⟨ps, h1, h2⟩ := ih.2 (fun x hx => h x (by simp [hx]))
        unfold loadProjs
        simp only [hg, h1, List.filterMap_cons, List.head?_cons, Option.bind_some]
        cases synTypeOfId i with
        | none => exact ⟨ps, rfl, h2⟩
        | some t => exact ⟨_, rfl, by simp only [List.map_cons, h2, Option.map_some]⟩

/-- C75: loading a file never throws.  It is undefined exactly if some population or projection in it, anywhere, has no elements; otherwise the loaded
network has the populations and projections of the file, in its order, without those whose first element has an unknown type. -/
theorem C75_load_total (dn : NType → Params V) (ds : SType → Params V) (fresh : UID) (f : File V) :
    ((∃ g ∈ f.nodes ++ f.edges, g.typeIds = []) → loadNetwork dn ds fresh f = .ub) ∧
    ((∀ g ∈ f.nodes ++ f.edges, g.typeIds ≠ []) → ∃ n, loadNetwork dn ds fresh f = .ok n ∧ n.uid = f.networkUid.getD fresh ∧
      n.populations.map (fun p => (p.uid, p.type, p.neurons.length)) =
        f.nodes.filterMap (fun g => (g.typeIds.head?.bind typeOfId).map (fun t => (g.name, t, g.typeIds.length))) ∧
      n.projections.map (fun p => (p.uid, p.type, p.pre, p.post, p.locked)) =
        f.edges.filterMap (fun g => (g.typeIds.head?.bind synTypeOfId).map (fun t => (g.name, t, g.pre, g.post, g.isLocked.getD true)))) := by
  obtain ⟨a1, a2⟩ := loadPops_shape dn f.nodes
  obtain ⟨b1, b2⟩ := loadProjs_shape ds f.edges
  by_cases ha : ∃ g ∈ f.nodes, g.typeIds = []
  · refine ⟨fun _ => by unfold loadNetwork; rw [a1 ha], fun h => ?_⟩
    obtain ⟨g, hg, he⟩ := ha
    exact absurd he (h g (by simp [hg]))
  · obtain ⟨ps, p1, p2⟩ := a2 (fun g hg he => ha ⟨g, hg, he⟩)
    by_cases hb : ∃ g ∈ f.edges, g.typeIds = []
    · refine ⟨fun _ => by unfold loadNetwork; rw [p1]; simp only [b1 hb], fun h => ?_⟩
      obtain ⟨g, hg, he⟩ := hb
      exact absurd he (h g (by simp [hg]))
    · obtain ⟨qs, q1, q2⟩ := b2 (fun g hg he => hb ⟨g, hg, he⟩)
      refine ⟨?_, fun _ => ⟨⟨f.networkUid.getD fresh, ps, qs⟩, by unfold loadNetwork; rw [p1]; simp only [q1], rfl, p2, q2⟩⟩
      rintro ⟨g, hg, he⟩
      rcases List.mem_append.1 hg with hg | hg
      · exact absurd ⟨g, hg, he⟩ ha
      · exact absurd ⟨g, hg, he⟩ hb

private theorem savePops_inv (l : List (Pop V)) (acc gs : List (Group V)) (h : savePops l acc = .ok gs) :
    gs = acc ++ l.map savePop ∧ (∀ p ∈ l, ∀ g ∈ acc, g.name ≠ p.uid) ∧ (l.map (fun p => p.uid)).Nodup := by
  induction l generalizing acc with
  | nil => cases h; simp
  | cons p l ih =>
    unfold savePops at h
    split at h
    · cases h
    · rename_i hn
      obtain ⟨e, h1, h2⟩ := ih _ h
      have hn : ∀ g ∈ acc, g.name ≠ p.uid := by
        intro g hg he
        exact hn (List.any_eq_true.2 ⟨g, hg, by simpa using he⟩)
      refine ⟨by simp [e], ?_, ?_⟩
      · intro q hq g hg
        rcases List.mem_cons.1 hq with rfl | hq
        · exact hn g hg
        · exact h1 q hq g (by simp [hg])
      · rw [List.map_cons, List.nodup_cons]
        refine ⟨fun hm => ?_, h2⟩
        obtain ⟨q, hq, he⟩ := List.mem_map.1 hm
        exact h1 q hq (savePop p) (by simp) he.symm

private theorem saveProjs_inv (l : List (Proj V)) (acc gs : List (Group V)) (h : saveProjs l acc = .ok gs) :
    gs = acc ++ l.map projGroup ∧ (∀ p ∈ l, p.type ≠ .additive) ∧ (∀ p ∈ l, ∀ g ∈ acc, g.name ≠ p.uid) ∧ (l.map (fun p => p.uid)).Nodup := by
  induction l generalizing acc with
  | nil => cases h; simp
  | cons p l ih =>
    unfold saveProjs saveProj at h
    by_cases ha : p.type = .additive
    · rw [if_pos ha] at h; cases h
    · rw [if_neg ha] at h
      simp only at h
      split at h
      · cases h
      · rename_i hn
        obtain ⟨e, h0, h1, h2⟩ := ih _ h
        have hn : ∀ g ∈ acc, g.name ≠ p.uid := by
          intro g hg he
          exact hn (List.any_eq_true.2 ⟨g, hg, by simpa using he⟩)
        refine ⟨by simp [e, projGroup], ?_, ?_, ?_⟩
        · intro q hq
          rcases List.mem_cons.1 hq with rfl | hq
          · exact ha
          · exact h0 q hq
        · intro q hq g hg
          rcases List.mem_cons.1 hq with rfl | hq
          · exact hn g hg
          · exact h1 q hq g (by simp [hg])
        · rw [List.map_cons, List.nodup_cons]
          refine ⟨fun hm => ?_, h2⟩
          obtain ⟨q, hq, he⟩ := List.mem_map.1 hm
          exact h1 q hq (projGroup p) (by simp [projGroup]) he.symm

private theorem insert_mem {α : Type} (le : α → α → Bool) (a x : α) (l : List α) : x ∈ insertBy le a l ↔ x = a ∨ x ∈ l := by
  induction l with
  | nil => simp [insertBy]
  | cons b l ih =>
    unfold insertBy
    split
    · simp
    · simp only [List.mem_cons, ih]
      exact ⟨fun h => by rcases h with h | h | h <;> simp [h], fun h => by rcases h with h | h | h <;> simp [h]⟩

private theorem sort_mem {α : Type} (le : α → α → Bool) (x : α) (l : List α) : x ∈ sortBy le l ↔ x ∈ l := by
  induction l with
  | nil => simp [sortBy]
  | cons b l ih =>
    have : sortBy le (b :: l) = insertBy le b (sortBy le l) := rfl
    rw [this, insert_mem, ih, List.mem_cons]

/-- C75, exactly when: a network can be saved and loaded again if and only if it is `Savable`.  A network that is not is refused by `save_network` with
an exception, or - if an empty population or projection is the only fault - saved, and loading the file is undefined. -/
theorem C75_savable_iff (dn : NType → Params V) (ds : SType → Params V) (fresh : UID) (n : Net V) :
    (Savable n ↔ ∃ f m, saveNetwork n = .ok f ∧ loadNetwork dn ds fresh f = .ok m) ∧
    (¬ Savable n → (∃ e, saveNetwork n = .throw e) ∨
      (∃ f, saveNetwork n = .ok f ∧ loadNetwork dn ds fresh f = .ub ∧
        ((∃ p ∈ n.populations, p.neurons = []) ∨ ∃ p ∈ n.projections, p.synapses = []))) := by
  have key : ¬ Savable n → (∃ e, saveNetwork n = .throw e) ∨
      (∃ f, saveNetwork n = .ok f ∧ loadNetwork dn ds fresh f = .ub ∧
        ((∃ p ∈ n.populations, p.neurons = []) ∨ ∃ p ∈ n.projections, p.synapses = [])) := by
    intro hn
    have hpub : ∀ (l : List (Pop V)) acc, savePops l acc ≠ .ub := by
      intro l
      induction l with
      | nil => intro acc h; cases h
      | cons p l ih => intro acc; unfold savePops; split
                       · intro h; cases h
                       · exact ih _
    have hjub : ∀ (l : List (Proj V)) acc, saveProjs l acc ≠ .ub := by
      intro l
      induction l with
      | nil => intro acc h; cases h
      | cons p l ih =>
        intro acc
        unfold saveProjs saveProj
        by_cases ha : p.type = .additive
        · rw [if_pos ha]; intro h; cases h
        · rw [if_neg ha]
          simp only
          split
          · intro h; cases h
          · exact ih _
    unfold saveNetwork
    cases h1 : saveProjs n.projections [] with
    | ub => exact absurd h1 (hjub _ _)
    | throw e => exact .inl ⟨e, rfl⟩
    | ok edges =>
      cases h2 : savePops n.populations [] with
      | ub => exact absurd h2 (hpub _ _)
      | throw e => exact .inl ⟨e, rfl⟩
      | ok nodes =>
        simp only
        split
        · exact .inl ⟨_, rfl⟩
        · rename_i he
          obtain ⟨e1, hadd, _, hju⟩ := saveProjs_inv _ _ _ h1
          obtain ⟨e2, _, hpu⟩ := savePops_inv _ _ _ h2
          have hempty : (∃ p ∈ n.populations, p.neurons = []) ∨ ∃ p ∈ n.projections, p.synapses = [] := by
            by_contra hc
            refine hn ⟨?_, ?_, fun p hp hz => hc (.inl ⟨p, hp, hz⟩), fun p hp hz => hc (.inr ⟨p, hp, hz⟩), hadd, hpu, hju⟩
            · intro hz; exact he (by simp [hz])
            · intro hz; exact he (by simp [hz])
          refine .inr ⟨_, rfl, (C75_load_total dn ds fresh _).1 ?_, hempty⟩
          rcases hempty with ⟨p, hp, hz⟩ | ⟨p, hp, hz⟩
          · refine ⟨savePop p, List.mem_append_left _ ((sort_mem _ _ _).2 ?_), by simp [savePop, hz]⟩
            rw [e2]; simp; exact ⟨p, hp, rfl⟩
          · refine ⟨projGroup p, List.mem_append_right _ ((sort_mem _ _ _).2 ?_), by simp [projGroup, hz]⟩
            rw [e1]; simp; exact ⟨p, hp, rfl⟩
  refine ⟨⟨fun h => ?_, fun ⟨f, m, h1, h2⟩ => ?_⟩, key⟩
  · obtain ⟨f, m, h1, h2, _⟩ := C75_roundtrip_partial dn ds fresh n h
    exact ⟨f, m, h1, h2⟩
  · by_contra hn
    rcases key hn with ⟨e, he⟩ | ⟨f', hf, hu, _⟩
    · rw [h1] at he; cases he
    · rw [h1] at hf; cases hf; rw [h2] at hu; cases hu

/-- Both outcomes occur: `exNet` is savable; a second copy of a population makes it not so. -/
example : Savable exNet ∧ ¬ Savable { exNet with populations := exNet.populations ++ exNet.populations } :=
  ⟨C75_lost_field_refuted.1, fun h => absurd h.popUids (by decide)⟩

end Total

/-! ## C76 -/

/-- C76 is false: the first neuron type is written twice; a synapse type added twice in a row is written twice. -/
theorem C76_refuted : addAll addNeuronType [100] none = .ok (some [100, 100]) ∧
    addAll addSynapseType [100, 100] none = .ok (some [100, 100]) ∧
    addAll addNeuronType [100, 104, 104] none = .ok (some [100, 100, 104, 104]) := by
  refine ⟨by rfl, by rfl, by rfl⟩

private theorem last_count (l : List Nat) (t : Nat) (h : t ∉ l.dropLast) : l.count t ≤ 1 := by
  rcases List.eq_nil_or_concat l with rfl | ⟨l', b, rfl⟩
  · simp
  · rw [List.concat_eq_append, List.dropLast_concat] at h
    rw [List.concat_eq_append, List.count_append, List.count_eq_zero_of_not_mem h]
    simp [List.count_singleton]
    split <;> omega

private theorem dropLast_mem (l : List Nat) (t : Nat) (h : t ∈ l.dropLast) : t ∈ l := (List.dropLast_sublist l).subset h

/-- What one addition does to an existing non-empty table. -/
private theorem add_step (rows : List Nat) (t : Nat) (l : List Nat)
    (h : (if rows = [] then Outcome.ub else if rows.dropLast.contains t then .ok rows else .ok (rows ++ [t])) = .ok l)
    (hc : ∀ u, rows.count u ≤ 2) : l ≠ [] ∧ t ∈ l ∧ (∀ u ∈ rows, u ∈ l) ∧ (∀ u, l.count u ≤ 2) ∧ (∀ u ∈ l, u ∈ rows ∨ u = t) := by
  split at h
  · cases h
  · rename_i hne
    split at h
    · rename_i hm
      injection h with h; subst h
      refine ⟨hne, dropLast_mem _ _ (by simpa using hm), fun u hu => hu, hc, fun u hu => Or.inl hu⟩
    · rename_i hm
      injection h with h; subst h
      refine ⟨by simp, by simp, fun u hu => by simp [hu], fun u => ?_, fun u hu => by simpa using hu⟩
      by_cases hu : u = t
      · subst hu
        have := last_count rows u (by simpa using hm)
        simp [List.count_append]; omega
      · have := hc u
        rw [List.count_append, List.count_singleton]
        have : (t == u) = false := by simpa using fun h => hu h.symm
        simp only [this]
        simpa using hc u

/-- Either table writer. -/
private theorem add_step' (add : Nat → Option (List Nat) → Outcome (List Nat)) (ha : add = addNeuronType ∨ add = addSynapseType)
    (rows : List Nat) (hne : rows ≠ []) (t : Nat) : ∃ l, add t (some rows) = .ok l ∧
      (if rows = [] then Outcome.ub else if rows.dropLast.contains t then .ok rows else .ok (rows ++ [t])) = .ok l := by
  have : ∃ l, (if rows = [] then Outcome.ub else if rows.dropLast.contains t then .ok rows else .ok (rows ++ [t])) = .ok l := by
    rw [if_neg hne]
    split
    · exact ⟨_, rfl⟩
    · exact ⟨_, rfl⟩
  obtain ⟨l, hl⟩ := this
  refine ⟨l, ?_, hl⟩
  rcases ha with rfl | rfl
  · exact hl
  · exact hl

private theorem addAll_some (add : Nat → Option (List Nat) → Outcome (List Nat)) (ha : add = addNeuronType ∨ add = addSynapseType)
    (ts rows : List Nat) (hne : rows ≠ []) (hc : ∀ u, rows.count u ≤ 2) :
    ∃ l, addAll add ts (some rows) = .ok (some l) ∧ (∀ u, u ∈ l ↔ u ∈ rows ∨ u ∈ ts) ∧ (∀ u, l.count u ≤ 2) := by
  induction ts generalizing rows with
  | nil => exact ⟨rows, rfl, by simp, hc⟩
  | cons t ts ih =>
    obtain ⟨l1, h1, h1'⟩ := add_step' add ha rows hne t
    obtain ⟨a, b, c, d, e⟩ := add_step rows t l1 h1' hc
    obtain ⟨l, hl, hm, hcount⟩ := ih l1 a d
    refine ⟨l, ?_, ?_, hcount⟩
    · unfold addAll; rw [h1]; exact hl
    · intro u
      rw [hm u]
      constructor
      · rintro (h | h)
        · rcases e u h with h | rfl
          · exact Or.inl h
          · exact Or.inr (List.mem_cons_self ..)
        · exact Or.inr (List.mem_cons_of_mem _ h)
      · rintro (h | h)
        · exact Or.inl (c u h)
        · rcases List.mem_cons.1 h with rfl | h
          · exact Or.inl b
          · exact Or.inr h

/-- C76 (partial: at most twice instead of once).  Starting without a file, any non-empty sequence of additions succeeds, and
the table lists exactly the added types, each at least once and at most twice. -/
theorem C76_listed_partial (add : Nat → Option (List Nat) → Outcome (List Nat)) (ha : add = addNeuronType ∨ add = addSynapseType)
    (ts : List Nat) (hts : ts ≠ []) :
    ∃ l, addAll add ts none = .ok (some l) ∧ (∀ u, u ∈ l ↔ u ∈ ts) ∧ (∀ u, l.count u ≤ 2) := by
  obtain ⟨t, ts, rfl⟩ := List.exists_cons_of_ne_nil hts
  rcases ha with rfl | rfl
  · obtain ⟨l, hl, hm, hc⟩ := addAll_some addNeuronType (Or.inl rfl) ts [t, t] (by simp) (by
      intro u; have := List.count_le_length (a := u) (l := [t, t]); simpa using this)
    refine ⟨l, by unfold addAll; exact hl, fun u => ?_, hc⟩
    rw [hm u]; simp
  · obtain ⟨l, hl, hm, hc⟩ := addAll_some addSynapseType (Or.inr rfl) ts [t] (by simp) (by
      intro u; have := List.count_le_length (a := u) (l := [t]); simp at this; omega)
    refine ⟨l, by unfold addAll; exact hl, fun u => ?_, hc⟩
    rw [hm u]; simp

example : addAll addNeuronType [101, 104, 101] none = .ok (some [101, 101, 104]) := by rfl

/-- C76: a table file that has only its header makes both writers read outside the table. -/
theorem C76_header_only_ub (t : Nat) : addNeuronType t (some []) = .ub ∧ addSynapseType t (some []) = .ub := ⟨rfl, rfl⟩

end Knp.Props
