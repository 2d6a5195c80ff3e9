import Verif.Model.ModelLoader
import Verif.Props.Network

/-! # C25: loading a model creates its channels -/

namespace Knp.Props
open Knp Knp.Loader
variable {G P J : Type}

/-- What C25 asks of the state after a successful load into a fresh loader. -/
def ChannelsLoaded (iMap : UID → Option G) (m : FModel P J) (s : Loader G) : Prop :=
  -- every registered input channel can be obtained and uses its generator
  (∀ c e, (c, e) ∈ m.inChannels → ∃ ch, s.getInputChannel c = .ok ch ∧ ch.uid = c ∧
    iMap c = some ch.gen) ∧
  -- a projection listens to a channel exactly if this was registered
  (∀ c e, (e, c) ∈ s.subs ↔ (c, e) ∈ m.inChannels) ∧
  -- every registered output channel can be obtained and listens to exactly its populations
  (∀ c e, (c, e) ∈ m.outChannels → ∃ ch, s.getOutputChannel c = .ok ch ∧ ch.uid = c ∧
    ∀ p, p ∈ ch.senders ↔ (c, p) ∈ m.outChannels) ∧
  -- nothing else was created
  (∀ ch ∈ s.inChannels, ∃ e, (ch.uid, e) ∈ m.inChannels) ∧
  (∀ ch ∈ s.outChannels, ∃ e, (ch.uid, e) ∈ m.outChannels)

/-- C25, full statement: whatever the hash function, loading a model with valid channels and all
generators succeeds and loads the channels. -/
def C25_statement (G P J : Type) : Prop :=
  ∀ (bIn bOut : UID → Nat) (nIn nOut : Nat) (iMap : UID → Option G) (m : FModel P J),
    ChannelsValid m → (∀ u, bIn u < nIn) → (∀ u, bOut u < nOut) →
    (∀ c ∈ m.inChannels, (iMap c.1).isSome = true) →
    ∃ s, load bIn bOut nIn nOut iMap m Loader.empty = .ok s ∧ ChannelsLoaded iMap m s

/-- C25 is false: if two channel UIDs fall into one hash bucket, only one channel object is created, and
the projections of both are subscribed to it. -/
theorem C25_channels_loaded_refuted : ¬ C25_statement Unit Unit Unit := by
  intro h
  obtain ⟨s, h1, h2⟩ := h (fun _ => 0) (fun _ => 0) 1 1 (fun _ => some ())
    ⟨⟨[], [⟨10, 0, 1, 0, ()⟩, ⟨20, 0, 1, 0, ()⟩]⟩, [(1, 10), (2, 20)], []⟩
    (by constructor <;> decide) (by simp) (by simp) (by simp)
  have h3 : s = ⟨[⟨1, ()⟩], [], [(10, 1), (20, 1)], [10, 20], []⟩ := by
    have : load (fun _ => 0) (fun _ => 0) 1 1 (fun _ => some ())
      (⟨⟨[], [⟨10, 0, 1, 0, ()⟩, ⟨20, 0, 1, 0, ()⟩]⟩, [(1, 10), (2, 20)], []⟩ : FModel Unit Unit)
      Loader.empty = .ok ⟨[⟨1, ()⟩], [], [(10, 1), (20, 1)], [10, 20], []⟩ := by rfl
    rw [this] at h1
    exact (Outcome.ok.inj h1).symm
  subst h3
  obtain ⟨ch, hc, _⟩ := h2.1 2 20 (by simp)
  simp [getInputChannel] at hc

/-! ### Helper lemmas -/

/-- The channels `init_channels` creates, in order: key and entities. -/
private def groups (b : UID → Nat) (cs : List (UID × UID)) : List Nat → List (UID × List UID)
  | [] => []
  | i :: is =>
    match bucket b cs i with
    | [] => groups b cs is
    | c :: rest => (c.1, (c :: rest).map Prod.snd) :: groups b cs is

private theorem initChannels_groups (b : UID → Nat) (cs : List (UID × UID))
    (gen : UID → List UID → Loader G → Outcome (Loader G)) (is : List Nat) (s : Loader G)
    (upd : UID × List UID → Loader G → Loader G)
    (h : ∀ g ∈ groups b cs is, ∀ s, gen g.1 g.2 s = .ok (upd g s)) :
    initChannels b cs gen is s = .ok ((groups b cs is).foldl (fun s g => upd g s) s) := by
  induction is generalizing s with
  | nil => rfl
  | cons i is ih =>
    unfold initChannels
    unfold groups at h ⊢
    cases hb : bucket b cs i with
    | nil => rw [hb] at h; exact ih s h
    | cons c rest =>
      rw [hb] at h
      have h1 := h _ (List.mem_cons_self ..) s
      show (match gen c.1 ((c :: rest).map Prod.snd) s with
        | .ok s' => initChannels b cs gen is s'
        | .throw w => .throw w
        | .ub => .ub) = _
      rw [h1]
      rw [List.foldl_cons]
      exact ih _ (fun g hg => h g (List.mem_cons_of_mem _ hg))

/-- If no two registered keys collide, a bucket is the set of entries of one key. -/
private theorem bucket_eq (b : UID → Nat) (cs : List (UID × UID)) (i : Nat)
    (hinj : ∀ x ∈ cs, ∀ y ∈ cs, b x.1 = b y.1 → x.1 = y.1) (c : UID × UID) (rest : List (UID × UID))
    (hb : bucket b cs i = c :: rest) :
    b c.1 = i ∧ c ∈ cs ∧ c :: rest = cs.filter (fun x => x.1 == c.1) := by
  have hc : c ∈ bucket b cs i := by rw [hb]; simp
  have hc' := List.mem_filter.1 hc
  have hi : b c.1 = i := by simpa using hc'.2
  refine ⟨hi, hc'.1, ?_⟩
  rw [← hb]
  unfold bucket
  apply List.filter_congr
  intro x hx
  by_cases e : x.1 = c.1
  · simp [e, hi]
  · have : b x.1 ≠ i := by
      intro e2
      exact e (hinj x hx c hc'.1 (by rw [e2, hi]))
    rw [beq_false_of_ne this, beq_false_of_ne e]

private theorem groups_mem (b : UID → Nat) (cs : List (UID × UID))
    (hinj : ∀ x ∈ cs, ∀ y ∈ cs, b x.1 = b y.1 → x.1 = y.1) (is : List Nat) (g : UID × List UID)
    (hg : g ∈ groups b cs is) :
    b g.1 ∈ is ∧ (∃ e, (g.1, e) ∈ cs) ∧ g.2 = (cs.filter (fun x => x.1 == g.1)).map Prod.snd := by
  induction is with
  | nil => simp [groups] at hg
  | cons i is ih =>
    unfold groups at hg
    cases hb : bucket b cs i with
    | nil =>
      rw [hb] at hg
      have := ih hg
      exact ⟨List.mem_cons_of_mem _ this.1, this.2⟩
    | cons c rest =>
      rw [hb] at hg
      rcases List.mem_cons.1 hg with rfl | hg
      · obtain ⟨h1, h2, h3⟩ := bucket_eq b cs i hinj c rest hb
        refine ⟨by simp [h1], ⟨c.2, h2⟩, ?_⟩
        simp only
        rw [h3]
      · have := ih hg
        exact ⟨List.mem_cons_of_mem _ this.1, this.2⟩

private theorem groups_complete (b : UID → Nat) (cs : List (UID × UID))
    (hinj : ∀ x ∈ cs, ∀ y ∈ cs, b x.1 = b y.1 → x.1 = y.1) (is : List Nat) (c e : UID)
    (hc : (c, e) ∈ cs) (hb : b c ∈ is) : ∃ g ∈ groups b cs is, g.1 = c := by
  induction is with
  | nil => simp at hb
  | cons i is ih =>
    unfold groups
    cases hbk : bucket b cs i with
    | nil =>
      simp only
      rcases List.mem_cons.1 hb with h | h
      · have : (c, e) ∈ bucket b cs i := List.mem_filter.2 ⟨hc, by simp [h]⟩
        rw [hbk] at this; simp at this
      · exact ih h
    | cons d rest =>
      simp only
      rcases List.mem_cons.1 hb with h | h
      · obtain ⟨h1, h2, _⟩ := bucket_eq b cs i hinj d rest hbk
        refine ⟨_, List.mem_cons_self .., ?_⟩
        exact (hinj _ h2 _ hc (by rw [h1, h]))
      · obtain ⟨g, hg, e⟩ := ih h
        exact ⟨g, List.mem_cons_of_mem _ hg, e⟩

private theorem subscribeInputs_ok (m : FModel P J) (c : UID) (ps : List UID) (s : Loader G)
    (h : ∀ p ∈ ps, ∃ j ∈ m.network.projections, j.uid = p) :
    subscribeInputs m c ps s = .ok { s with
      subs := s.subs ++ ps.map (fun p => (p, c)), taggedIn := s.taggedIn ++ ps } := by
  induction ps generalizing s with
  | nil => simp [subscribeInputs]
  | cons p ps ih =>
    obtain ⟨_, _, h3⟩ := C22_projection_lookup m.network p
    have := (C22_projection_lookup m.network p).1.2 (h p (by simp))
    obtain ⟨j, _, _, hj, _⟩ := h3 this
    unfold subscribeInputs
    rw [hj]
    simp only
    rw [ih _ (fun q hq => h q (List.mem_cons_of_mem _ hq))]
    simp [List.append_assoc]

private theorem tagOutputs_ok (m : FModel P J) (ps : List UID) (s : Loader G)
    (h : ∀ p ∈ ps, ∃ j ∈ m.network.populations, j.uid = p) :
    tagOutputs m ps s = .ok { s with taggedOut := s.taggedOut ++ ps } := by
  induction ps generalizing s with
  | nil => simp [tagOutputs]
  | cons p ps ih =>
    obtain ⟨_, _, h3⟩ := C22_population_lookup m.network p
    have := (C22_population_lookup m.network p).1.2 (h p (by simp))
    obtain ⟨j, _, _, hj, _⟩ := h3 this
    unfold tagOutputs
    rw [hj]
    simp only
    rw [ih _ (fun q hq => h q (List.mem_cons_of_mem _ hq))]
    simp [List.append_assoc]

private def updIn (iMap : UID → Option G) (g : UID × List UID) (s : Loader G) : Loader G :=
  match iMap g.1 with
  | none => s
  | some x => { s with
      inChannels := s.inChannels ++ [⟨g.1, x⟩]
      subs := s.subs ++ g.2.map (fun p => (p, g.1)), taggedIn := s.taggedIn ++ g.2 }

private def updOut (g : UID × List UID) (s : Loader G) : Loader G :=
  { s with outChannels := s.outChannels ++ [⟨g.1, g.2⟩], taggedOut := s.taggedOut ++ g.2 }

private theorem foldIn (iMap : UID → Option G) (gs : List (UID × List UID)) (s : Loader G)
    (h : ∀ g ∈ gs, (iMap g.1).isSome = true) :
    let r := gs.foldl (fun s g => updIn iMap g s) s
    r.outChannels = s.outChannels ∧ r.taggedOut = s.taggedOut ∧
    r.subs = s.subs ++ gs.flatMap (fun g => g.2.map (fun p => (p, g.1))) ∧
    r.taggedIn = s.taggedIn ++ gs.flatMap (·.2) ∧
    r.inChannels = s.inChannels ++ gs.filterMap (fun g => (iMap g.1).map (fun x => ⟨g.1, x⟩)) := by
  induction gs generalizing s with
  | nil => simp
  | cons g gs ih =>
    simp only [List.foldl_cons]
    obtain ⟨x, hx⟩ := Option.isSome_iff_exists.1 (h g (by simp))
    obtain ⟨h1, h2, h3, h4, h5⟩ := ih (updIn iMap g s) (fun q hq => h q (List.mem_cons_of_mem _ hq))
    rw [h1, h2, h3, h4, h5]
    simp [updIn, hx]

private theorem foldOut (gs : List (UID × List UID)) (s : Loader G) :
    let r := gs.foldl (fun s g => updOut g s) s
    r.inChannels = s.inChannels ∧ r.taggedIn = s.taggedIn ∧ r.subs = s.subs ∧
    r.taggedOut = s.taggedOut ++ gs.flatMap (·.2) ∧
    r.outChannels = s.outChannels ++ gs.map (fun g => ⟨g.1, g.2⟩) := by
  induction gs generalizing s with
  | nil => simp
  | cons g gs ih =>
    simp only [List.foldl_cons]
    obtain ⟨h1, h2, h3, h4, h5⟩ := ih (updOut g s)
    rw [h1, h2, h3, h4, h5]
    simp [updOut]

/-- C25, what holds: if no two different registered channel UIDs share a bucket, loading succeeds and
loads every channel exactly as registered; the registered projections and populations (and only they)
are tagged. -/
theorem C25_channels_loaded_partial (bIn bOut : UID → Nat) (nIn nOut : Nat) (iMap : UID → Option G)
    (m : FModel P J) (hv : ChannelsValid m) (hbi : ∀ u, bIn u < nIn) (hbo : ∀ u, bOut u < nOut)
    (hg : ∀ c ∈ m.inChannels, (iMap c.1).isSome = true)
    (hinjI : ∀ x ∈ m.inChannels, ∀ y ∈ m.inChannels, bIn x.1 = bIn y.1 → x.1 = y.1)
    (hinjO : ∀ x ∈ m.outChannels, ∀ y ∈ m.outChannels, bOut x.1 = bOut y.1 → x.1 = y.1) :
    ∃ s, load bIn bOut nIn nOut iMap m Loader.empty = .ok s ∧ ChannelsLoaded iMap m s ∧
      (∀ p, p ∈ s.taggedIn ↔ ∃ c, (c, p) ∈ m.inChannels) ∧
      (∀ p, p ∈ s.taggedOut ↔ ∃ c, (c, p) ∈ m.outChannels) := by
  have mem2 : ∀ (cs : List (UID × UID)) (c p : UID),
      p ∈ (cs.filter (fun x => x.1 == c)).map Prod.snd ↔ (c, p) ∈ cs := by
    intro cs c p
    simp only [List.mem_map, List.mem_filter, beq_iff_eq]
    constructor
    · rintro ⟨⟨a, b⟩, ⟨h1, h2⟩, h3⟩
      simp only at h2 h3
      rw [← h2, ← h3]; exact h1
    · intro h; exact ⟨(c, p), ⟨h, rfl⟩, rfl⟩
  let gi := groups bIn m.inChannels (List.range nIn)
  let go := groups bOut m.outChannels (List.range nOut)
  have gim : ∀ g ∈ gi, (∃ e, (g.1, e) ∈ m.inChannels) ∧ ∀ p, p ∈ g.2 ↔ (g.1, p) ∈ m.inChannels := by
    intro g hgm
    obtain ⟨_, h2, h3⟩ := groups_mem bIn _ hinjI _ g hgm
    refine ⟨h2, fun p => ?_⟩
    rw [h3]; exact mem2 _ _ _
  have gom : ∀ g ∈ go, (∃ e, (g.1, e) ∈ m.outChannels) ∧ ∀ p, p ∈ g.2 ↔ (g.1, p) ∈ m.outChannels := by
    intro g hgm
    obtain ⟨_, h2, h3⟩ := groups_mem bOut _ hinjO _ g hgm
    refine ⟨h2, fun p => ?_⟩
    rw [h3]; exact mem2 _ _ _
  have gic : ∀ c e, (c, e) ∈ m.inChannels → ∃ g ∈ gi, g.1 = c := fun c e hc =>
    groups_complete bIn _ hinjI _ c e hc (List.mem_range.2 (hbi c))
  have goc : ∀ c e, (c, e) ∈ m.outChannels → ∃ g ∈ go, g.1 = c := fun c e hc =>
    groups_complete bOut _ hinjO _ c e hc (List.mem_range.2 (hbo c))
  have himap : ∀ g ∈ gi, (iMap g.1).isSome = true := by
    intro g hgm
    obtain ⟨e, he⟩ := (gim g hgm).1
    exact hg _ he
  have hI := initChannels_groups (G := G) bIn m.inChannels (genInput iMap m) (List.range nIn)
    Loader.empty (updIn iMap) (by
      intro g hgm s
      obtain ⟨x, hx⟩ := Option.isSome_iff_exists.1 (himap g hgm)
      simp only [genInput, updIn, hx]
      rw [subscribeInputs_ok]
      intro p hp
      exact hv.1 _ (((gim g hgm).2 p).1 hp))
  have hO := initChannels_groups (G := G) bOut m.outChannels (genOutput m) (List.range nOut)
    (gi.foldl (fun s g => updIn iMap g s) Loader.empty) updOut (by
      intro g hgm s
      simp only [genOutput, updOut]
      rw [tagOutputs_ok]
      intro p hp
      exact hv.2 _ (((gom g hgm).2 p).1 hp))
  obtain ⟨a1, a2, a3, a4, a5⟩ := foldIn iMap gi Loader.empty himap
  obtain ⟨b1, b2, b3, b4, b5⟩ := foldOut go (gi.foldl (fun s g => updIn iMap g s) Loader.empty)
  refine ⟨go.foldl (fun s g => updOut g s) (gi.foldl (fun s g => updIn iMap g s) Loader.empty),
    ?_, ⟨?_, ?_, ?_, ?_, ?_⟩, ?_, ?_⟩
  · unfold load
    rw [hI]
    exact hO
  · intro c e hc
    have hin : (go.foldl (fun s g => updOut g s)
        (gi.foldl (fun s g => updIn iMap g s) Loader.empty)).inChannels =
        gi.filterMap (fun g => (iMap g.1).map (fun x => (⟨g.1, x⟩ : InCh G))) := by
      rw [b1, a5]; simp [Loader.empty]
    obtain ⟨g, hgm, hgc⟩ := gic c e hc
    obtain ⟨x, hx⟩ := Option.isSome_iff_exists.1 (himap g hgm)
    have hmem : (⟨g.1, x⟩ : InCh G) ∈
        gi.filterMap (fun g => (iMap g.1).map (fun x => (⟨g.1, x⟩ : InCh G))) :=
      List.mem_filterMap.2 ⟨g, hgm, by simp [hx]⟩
    have hsome : ((gi.filterMap (fun g => (iMap g.1).map (fun x => (⟨g.1, x⟩ : InCh G)))).find?
        (fun ch => ch.uid == c)).isSome = true := by
      rw [List.find?_isSome]
      exact ⟨_, hmem, by simp [hgc]⟩
    obtain ⟨ch, hch⟩ := Option.isSome_iff_exists.1 hsome
    have hu : ch.uid = c := by simpa using List.find?_some hch
    refine ⟨ch, ?_, hu, ?_⟩
    · simp only [getInputChannel, hin, hch]
    · obtain ⟨g', _, hg'⟩ := List.mem_filterMap.1 (List.mem_of_find?_eq_some hch)
      obtain ⟨y, hy1, hy2⟩ := Option.map_eq_some_iff.1 hg'
      subst hy2
      simp only at hu ⊢
      rw [← hu]; exact hy1
  · intro c e
    rw [b3, a3]
    simp only [Loader.empty, List.nil_append, List.mem_flatMap, List.mem_map, Prod.mk.injEq]
    constructor
    · rintro ⟨g, hgm, p, hp, rfl, rfl⟩
      exact ((gim g hgm).2 p).1 hp
    · intro hc
      obtain ⟨g, hgm, rfl⟩ := gic c e hc
      exact ⟨g, hgm, e, ((gim g hgm).2 e).2 hc, rfl, rfl⟩
  · intro c e hc
    have hout : (go.foldl (fun s g => updOut g s)
        (gi.foldl (fun s g => updIn iMap g s) Loader.empty)).outChannels =
        go.map (fun g => (⟨g.1, g.2⟩ : OutCh)) := by
      rw [b5, a1]; simp [Loader.empty]
    obtain ⟨g, hgm, hgc⟩ := goc c e hc
    have hsome : ((go.map (fun g => (⟨g.1, g.2⟩ : OutCh))).find?
        (fun ch => ch.uid == c)).isSome = true := by
      rw [List.find?_isSome]
      exact ⟨⟨g.1, g.2⟩, List.mem_map.2 ⟨g, hgm, rfl⟩, by simp [hgc]⟩
    obtain ⟨ch, hch⟩ := Option.isSome_iff_exists.1 hsome
    have hu : ch.uid = c := by simpa using List.find?_some hch
    refine ⟨ch, by simp only [getOutputChannel, hout, hch], hu, ?_⟩
    obtain ⟨g', hgm', hg'⟩ := List.mem_map.1 (List.mem_of_find?_eq_some hch)
    intro p
    have := (gom g' hgm').2 p
    rw [← hg'] at hu ⊢
    simp only at hu ⊢
    rw [← hu]; exact this
  · intro ch hch
    rw [b1, a5] at hch
    simp only [Loader.empty, List.nil_append] at hch
    obtain ⟨g, hgm, hg'⟩ := List.mem_filterMap.1 hch
    obtain ⟨y, _, hy2⟩ := Option.map_eq_some_iff.1 hg'
    rw [← hy2]
    exact (gim g hgm).1
  · intro ch hch
    rw [b5, a1] at hch
    simp only [Loader.empty, List.nil_append] at hch
    obtain ⟨g, hgm, hg'⟩ := List.mem_map.1 hch
    rw [← hg']
    exact (gom g hgm).1
  · intro p
    rw [b2, a4]
    simp only [Loader.empty, List.nil_append, List.mem_flatMap]
    constructor
    · rintro ⟨g, hgm, hp⟩
      exact ⟨g.1, ((gim g hgm).2 p).1 hp⟩
    · rintro ⟨c, hc⟩
      obtain ⟨g, hgm, rfl⟩ := gic c p hc
      exact ⟨g, hgm, ((gim g hgm).2 p).2 hc⟩
  · intro p
    rw [b4, a2]
    simp only [Loader.empty, List.nil_append, List.mem_flatMap]
    constructor
    · rintro ⟨g, hgm, hp⟩
      exact ⟨g.1, ((gom g hgm).2 p).1 hp⟩
    · rintro ⟨c, hc⟩
      obtain ⟨g, hgm, rfl⟩ := goc c p hc
      exact ⟨g, hgm, ((gom g hgm).2 p).2 hc⟩

/-- Two input channels (one with two projections) and an output channel, in different buckets. -/
example : load (fun u => u % 5) (fun u => u % 5) 5 5 (fun u => if u = 9 then none else some u)
    (⟨⟨[⟨50, 0, ()⟩], [⟨10, 0, 50, 0, ()⟩, ⟨20, 0, 50, 0, ()⟩, ⟨30, 0, 50, 0, ()⟩]⟩,
      [(3, 10), (1, 20), (3, 30)], [(7, 50)]⟩ : FModel Unit Unit) Loader.empty =
    .ok ⟨[⟨1, 1⟩, ⟨3, 3⟩], [⟨7, [50]⟩], [(20, 1), (10, 3), (30, 3)], [20, 10, 30], [50]⟩ := by rfl

/-- C25, missing generators: if a registered input channel has no generator and no two channels share a
bucket, loading ends with an exception. -/
theorem C25_missing_generator (bIn bOut : UID → Nat) (nIn nOut : Nat) (iMap : UID → Option G)
    (m : FModel P J) (s₀ : Loader G) (hbi : ∀ u, bIn u < nIn) (c e : UID)
    (hc : (c, e) ∈ m.inChannels) (hn : iMap c = none)
    (hinjI : ∀ x ∈ m.inChannels, ∀ y ∈ m.inChannels, bIn x.1 = bIn y.1 → x.1 = y.1) :
    (load bIn bOut nIn nOut iMap m s₀).isThrow = true := by
  have hsub : ∀ (ch : UID) (ps : List UID) (s : Loader G),
      subscribeInputs m ch ps s ≠ .ub := by
    intro ch ps
    induction ps with
    | nil => intro s; simp [subscribeInputs]
    | cons p ps ih =>
      intro s
      unfold subscribeInputs
      have : m.network.getProjection p ≠ .ub := by
        unfold Network.getProjection; split <;> simp
      cases h : m.network.getProjection p with
      | ok _ => exact ih _
      | throw w => simp
      | ub => exact absurd h this
  have hgen : ∀ (ch : UID) (ps : List UID) (s : Loader G), genInput iMap m ch ps s ≠ .ub := by
    intro ch ps s
    unfold genInput
    split
    · simp
    · exact hsub _ _ _
  have key : ∀ (is : List Nat) (s : Loader G), bIn c ∈ is →
      (initChannels bIn m.inChannels (genInput iMap m) is s).isThrow = true := by
    intro is
    induction is with
    | nil => intro s h; simp at h
    | cons i is ih =>
      intro s h
      unfold initChannels
      cases hb : bucket bIn m.inChannels i with
      | nil =>
        simp only
        rcases List.mem_cons.1 h with h | h
        · have : (c, e) ∈ bucket bIn m.inChannels i := List.mem_filter.2 ⟨hc, by simp [h]⟩
          rw [hb] at this; simp at this
        · exact ih s h
      | cons d rest =>
        simp only
        rcases List.mem_cons.1 h with h | h
        · obtain ⟨h1, h2, _⟩ := bucket_eq bIn _ i hinjI d rest hb
          have : d.1 = c := hinjI _ h2 _ hc (by rw [h1, h])
          simp [genInput, this, hn, Outcome.isThrow]
        · cases hgr : genInput iMap m d.1 (List.map Prod.snd (d :: rest)) s with
          | ok s' => exact ih s' h
          | throw w => rfl
          | ub => exact absurd hgr (hgen _ _ _)
  have := key (List.range nIn) s₀ (List.mem_range.2 (hbi c))
  unfold load
  cases hI : initChannels bIn m.inChannels (genInput iMap m) (List.range nIn) s₀ with
  | ok s' => rw [hI] at this; simp [Outcome.isThrow] at this
  | throw w => rfl
  | ub => rw [hI] at this; simp [Outcome.isThrow] at this

example : (load (fun u => u % 5) (fun u => u % 5) 5 5 (fun u => if u = 9 then none else some u)
    (⟨⟨[], [⟨10, 0, 50, 0, ()⟩]⟩, [(9, 10)], []⟩ : FModel Unit Unit) Loader.empty).isThrow = true := by
  rfl

/-- C25: an unknown channel UID is reported by an exception. -/
theorem C25_unknown_channel (s : Loader G) (u : UID) (hi : ∀ ch ∈ s.inChannels, ch.uid ≠ u)
    (ho : ∀ ch ∈ s.outChannels, ch.uid ≠ u) :
    (s.getInputChannel u).isThrow = true ∧ (s.getOutputChannel u).isThrow = true := by
  have h1 : s.inChannels.find? (fun c => c.uid == u) = none := List.find?_eq_none.2 (by simpa using hi)
  have h2 : s.outChannels.find? (fun c => c.uid == u) = none := List.find?_eq_none.2 (by simpa using ho)
  simp [getInputChannel, getOutputChannel, h1, h2, Outcome.isThrow]

example : ((⟨[⟨1, ()⟩], [⟨7, [50]⟩], [], [], []⟩ : Loader Unit).getInputChannel 2).isThrow = true := by rfl

end Knp.Props
