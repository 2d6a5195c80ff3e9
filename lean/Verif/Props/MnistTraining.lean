import Verif.Props.Mnist

/-!
# C167: what the training of the MNIST example shows the network

Which projection of the network hears what, in every step; when and where rewards arrive.
-/

namespace Knp.Props
open Knp Knp.Spec Knp.Neurons Knp.Stdp Knp.Mnist Knp.Prog

section
variable {σ N F : Type} [Field F] [LinearOrder F] [IsStrictOrderedRing F]

omit [Field F] [LinearOrder F] [IsStrictOrderedRing F] in
theorem inTurn_const {β : Type} (f : Nat → σ → β × σ) (g : Nat → β) (hg : ∀ k u, (f k u).1 = g k) : ∀ (ks : List Nat) (u : σ),
    (inTurn f ks u).1 = ks.map g
  | [], _ => rfl
  | k :: ks, u => by
    simp only [inTurn, List.map_cons, hg, inTurn_const f g hg ks]

omit [Field F] [LinearOrder F] [IsStrictOrderedRing F] in
theorem fed_at {L : Layout} {c : Code σ F} (g : Nat → Nat → List Nat) (hg : ∀ k u t, (c.gen k u t).1 = g k t) :
    ∀ (a b : List (Item F)) (i : Iter F) (u u' : σ) (acts : List (Act σ)), UserRun L c u acts (a ++ .iter i :: b) u' →
      i.fed = (List.range L.inputs.length).map (fun k => g k i.time) := by
  intro a
  induction a with
  | nil =>
    intro b i u u' acts h
    rw [List.nil_append] at h
    cases acts with
    | nil => simp [UserRun] at h
    | cons x xs =>
      cases x with
      | halt p => simp [UserRun] at h
      | read _ _ _ _ => simp [UserRun] at h
      | iterate p =>
        simp only [UserRun] at h
        rw [h.1]
        exact inTurn_const _ _ (fun k u => hg k u i.time) _ _
  | cons it a ih =>
    intro b i u u' acts h
    rw [List.cons_append] at h
    cases acts with
    | nil => cases it <;> simp [UserRun] at h
    | cons x xs =>
      cases x <;> cases it <;> simp only [UserRun] at h <;> try exact h.elim
      · exact ih _ _ _ _ _ h.2.2
      · exact ih _ _ _ _ _ h.2
      · exact ih _ _ _ _ _ h.2

omit [Field F] [LinearOrder F] [IsStrictOrderedRing F] in
theorem split_at {is : List (Iter F)} {T : Nat} (hT : T < is.length) (rest : List (Item F)) : is.map Item.iter ++ rest =
    (is.take T).map Item.iter ++ Item.iter is[T] :: ((is.drop (T + 1)).map Item.iter ++ rest) := by
  have e : is = is.take T ++ is[T] :: is.drop (T + 1) := by rw [← List.drop_eq_getElem_cons hT, List.take_append_drop]
  conv_lhs => rw [e]
  rw [List.map_append, List.map_cons, List.append_assoc, List.cons_append]

omit [Field F] [LinearOrder F] [IsStrictOrderedRing F] in
theorem iters_only (is : List (Iter F)) : iters (is.map Item.iter) = is := by
  induction is with
  | nil => rfl
  | cons i is ih => simp only [iters, List.map_cons, List.filterMap_cons] at ih ⊢; rw [ih]

/-- A training run of the example: any part of it that starts at the beginning, on any CPU backend. -/
structure TrainRun (be : Prog.Backend F) (arith : Arith F) (o : Ops F) (p : Params F) (fresh : Nat) (a : Annotated F) (d : Data.Dataset) (labelStep winners maxSize : Nat) (u : Uids)
    (loggers : List Observer) (observe : Nat → σ → List (Message F) → σ) (draw : Nat → σ → Nat → Nat → Nat) (advance : Nat → σ → σ) (u0 : σ)
    (acts : List (Act σ)) (s : Prog.State σ (Learn.Pop N (Blifat F) F) (Learn.Proj F) F) (is : List (Iter F)) (rest : List (Item F)) : Prop where
  fit : Fit p
  built : construct p fresh = .ok a
  uids : NewUids p fresh u
  data : WellFormed d
  some : 1 ≤ d.trainN
  label : 0 < labelStep
  length : is.length ≤ d.stepsTraining
  run : ProgRun be o (trainLayout a u loggers) (trainCode p a d labelStep winners maxSize observe draw advance)
    (loadPops arith a.builder.network) (loadProjs a.builder.network) (trainInputs a u) u0 acts s (is.map Item.iter ++ rest)

variable {be : Prog.Backend F} {arith : Arith F} {o : Ops F} {p : Params F} {fresh : Nat} {a : Annotated F} {d : Data.Dataset} {labelStep winners maxSize : Nat} {u : Uids}
  {loggers : List Observer} {observe : Nat → σ → List (Message F) → σ} {draw : Nat → σ → Nat → Nat → Nat} {advance : Nat → σ → σ} {u0 : σ}
  {acts : List (Act σ)} {s : Prog.State σ (Learn.Pop N (Blifat F) F) (Learn.Proj F) F} {is : List (Iter F)} {rest : List (Item F)}

omit [Field F] [LinearOrder F] [IsStrictOrderedRing F] in
private theorem layout_eq (a : Annotated F) (u : Uids) (loggers : List Observer) : trainLayout a u loggers =
    ⟨[u.raster, u.labels], [(u.out, a.builder.outputs)], a.wtaData.mapIdx (fun n d => ⟨u.handler n, d.1, d.2⟩), loggers⟩ := by
  unfold trainLayout
  rw [addWta_spec]
  simp

/-- The parts of the network of a training run. -/
private theorem parts (h : TrainRun (N := N) be arith o p fresh a d labelStep winners maxSize u loggers observe draw advance u0 acts s is rest) :
    a.fromRaster = (List.range p.subnetworks).map (fun s => fresh + 10 * s + 3) ∧
    a.fromClasses = (List.range p.subnetworks).flatMap (fun s => [fresh + 10 * s + 4, fresh + 10 * s + 7, fresh + 10 * s + 9]) ∧
    a.wtaData = (List.range p.subnetworks).map (fun s => ([fresh + 10 * s], [fresh + 10 * s + 5])) ∧
    (∀ r, r ∈ (loadPops (N := N) arith a.builder.network).map Learn.Pop.uid → fresh ≤ r ∧ r < fresh + 10 * p.subnetworks) ∧
    a.builder.network.projections = (List.range p.subnetworks).flatMap (fun s => subProjs (bodies p) (fresh + 10 * s)) ∧
    a.builder.network.populations = (List.range p.subnetworks).flatMap (fun s => subPops p (fresh + 10 * s)) ∧
    a.wtaBorders = (List.range p.classes).map (fun i => p.perColumn * (i + 1)) := by
  obtain ⟨infos, hc⟩ := construct_eq p h.fit fresh
  have ha := h.built
  rw [hc] at ha
  simp only [Outcome.ok.injEq] at ha
  subst ha
  refine ⟨rfl, rfl, rfl, ?_, rfl, rfl, rfl⟩
  intro r hr
  obtain ⟨q, hq, rfl⟩ := List.mem_map.1 hr
  obtain ⟨e, he, rfl⟩ := List.mem_map.1 hq
  obtain ⟨s, hs, he⟩ := List.mem_flatMap.1 he
  have hs := List.mem_range.1 hs
  simp only [subPops, List.mem_cons, List.not_mem_nil, or_false] at he
  have key : ∀ k : Nat, k < 10 → fresh ≤ fresh + 10 * s + k ∧ fresh + 10 * s + k < fresh + 10 * p.subnetworks := by intro k hk; omega
  rcases he with rfl | rfl | rfl
  · exact key 0 (by omega)
  · exact key 1 (by omega)
  · exact key 2 (by omega)

private theorem projs_mem (h : TrainRun (N := N) be arith o p fresh a d labelStep winners maxSize u loggers observe draw advance u0 acts s is rest)
    (k : Nat) (hk : k < p.subnetworks) {e : ProjEntity (JBody F)} (he : e ∈ subProjs (bodies p) (fresh + 10 * k)) :
    (⟨⟨e.uid, e.pre, e.post, e.kind == 0⟩, e.body.1, e.body.2, []⟩ : Learn.Proj F) ∈ loadProjs a.builder.network := by
  unfold loadProjs
  rw [(parts h).2.2.2.2.1]
  exact List.mem_map.2 ⟨e, List.mem_flatMap.2 ⟨k, List.mem_range.2 hk, he⟩, rfl⟩

private theorem proj_cases (h : TrainRun (N := N) be arith o p fresh a d labelStep winners maxSize u loggers observe draw advance u0 acts s is rest)
    {j : Learn.Proj F} (hj : j ∈ loadProjs a.builder.network) : ∃ k < p.subnetworks, ∃ e ∈ subProjs (bodies p) (fresh + 10 * k),
      j = ⟨⟨e.uid, e.pre, e.post, e.kind == 0⟩, e.body.1, e.body.2, []⟩ := by
  unfold loadProjs at hj
  rw [(parts h).2.2.2.2.1] at hj
  obtain ⟨e, he, rfl⟩ := List.mem_map.1 hj
  obtain ⟨k, hk, he⟩ := List.mem_flatMap.1 he
  exact ⟨k, List.mem_range.1 hk, e, he, rfl⟩

/-- Who a projection without a source population hears. -/
private theorem hears_only (h : TrainRun (N := N) be arith o p fresh a d labelStep winners maxSize u loggers observe draw advance u0 acts s is rest)
    {T : Nat} (hT : T < is.length) {k : Nat} (hk : k < p.subnetworks) {e : ProjEntity (JBody F)} (he : e ∈ subProjs (bodies p) (fresh + 10 * k))
    (hpre : e.pre = 0) {x : SpikeMessage} (hx : x ∈ heardBy is[T].out e.uid) :
    (e.uid, x.header.senderUid) ∈ trainInputs a u ++ (trainLayout a u loggers).handlerInputs := by
  have hmem := projs_mem h k hk he
  have hsplit : is.map Item.iter ++ rest = (is.take T).map Item.iter ++ Item.iter is[T] :: ((is.drop (T + 1)).map Item.iter ++ rest) := by
    exact split_at hT rest
  rw [heard_at h.run hsplit e.uid (List.mem_map.2 ⟨_, hmem, rfl⟩)] at hx
  have hx := (List.mem_filter.1 hx).2
  unfold learnHearing at hx
  simp only [decide_eq_true_eq] at hx
  rcases hx with ⟨h0, j, hj, hju, hs⟩ | hx
  · exfalso
    have hnd := h.run.projUids
    have : j = (⟨⟨e.uid, e.pre, e.post, e.kind == 0⟩, e.body.1, e.body.2, []⟩ : Learn.Proj F) :=
      List.inj_on_of_nodup_map hnd hj hmem hju
    subst this
    rcases hs with hs | hs
    · exact h0 (hs.symm.trans hpre)
    · simp only [subProjs, List.mem_cons, List.not_mem_nil, or_false] at he
      rcases he with rfl | rfl | rfl | rfl | rfl | rfl | rfl <;> simp [trainersOf, deltaSyns, resourceSyns] at hs
  · exact hx

private theorem handler_inputs (h : TrainRun (N := N) be arith o p fresh a d labelStep winners maxSize u loggers observe draw advance u0 acts s is rest)
    {r v : UID} (hx : (r, v) ∈ (trainLayout a u loggers).handlerInputs) : ∃ n < p.subnetworks, r = fresh + 10 * n + 5 ∧ v = u.handler n := by
  rw [layout_eq] at hx
  unfold Layout.handlerInputs at hx
  obtain ⟨hd, hh, hx⟩ := List.mem_flatMap.1 hx
  simp only at hh
  obtain ⟨n, hn, rfl⟩ := List.mem_mapIdx.1 hh
  have hw := (parts h).2.2.1
  have hn' : n < p.subnetworks := by
    have := congrArg List.length hw
    rw [List.length_map, List.length_range] at this
    omega
  have hg : a.wtaData[n] = ([fresh + 10 * n], [fresh + 10 * n + 5]) := by
    simp [hw]
  simp only [hg, List.map_cons, List.map_nil, List.mem_singleton, Prod.mk.injEq] at hx
  exact ⟨n, hn', hx.1, hx.2⟩

omit [Field F] [LinearOrder F] [IsStrictOrderedRing F] in
theorem not_both {v f n : Nat} (h1 : v < f ∨ f + n ≤ v) (h2 : f ≤ v ∧ v < f + n) : False := by omega

omit [IsStrictOrderedRing F] in
private theorem time_at (h : TrainRun (N := N) be arith o p fresh a d labelStep winners maxSize u loggers observe draw advance u0 acts s is rest)
    {T : Nat} (hT : T < is.length) : is[T].time = T := by
  rw [(out_at h.run (split_at hT rest)).1, iters_only, List.length_take]
  omega

private theorem channel (h : TrainRun (N := N) be arith o p fresh a d labelStep winners maxSize u loggers observe draw advance u0 acts s is rest)
    {T : Nat} (hT : T < is.length) {k : Nat} (hk : k < p.subnetworks) {e : ProjEntity (JBody F)} (he : e ∈ subProjs (bodies p) (fresh + 10 * k))
    (hpre : e.pre = 0) (n : Nat) (v : UID) (hn : [u.raster, u.labels][n]? = some v) (hin : (e.uid, v) ∈ trainInputs a u)
    (honly : ∀ w, (e.uid, w) ∈ trainInputs a u → w = v) (hhand : ∀ m, e.uid ≠ fresh + 10 * m + 5) :
    heardBy is[T].out e.uid = message v T (given (if n = 0 then d.trainingImages T else labelSpikes d labelStep T)) := by
  have hL := layout_eq a u loggers
  have hv : v = u.raster ∨ v = u.labels := by
    have := List.mem_of_getElem? hn
    simpa using this
  have hvn : v < fresh ∨ fresh + 10 * p.subnetworks ≤ v := by
    rcases hv with rfl | rfl
    · exact h.uids.raster
    · exact h.uids.labels
  have hmem := projs_mem h k hk he
  have hall : (heardBy is[T].out e.uid).filter (fun x => decide (x.header.senderUid = v)) = heardBy is[T].out e.uid := by
    rw [List.filter_eq_self]
    intro x hx
    rw [decide_eq_true_eq]
    rcases List.mem_append.1 (hears_only h hT hk he hpre hx) with hi | hi
    · exact honly _ hi
    · obtain ⟨m, _, hm, _⟩ := handler_inputs h hi
      exact absurd hm (hhand m)
  have hc := (C120_channel (mid := []) h.run (by rw [hL]; exact List.nodup_cons.2 ⟨by simpa using h.uids.channels, by simp⟩)
    (by rw [List.append_nil]; exact split_at hT rest) rfl (by
      rcases List.eq_nil_or_concat (is.take T) with h0 | ⟨a', i0, h0⟩
      · exact .inl (by rw [h0]; rfl)
      · exact .inr ⟨a'.map Item.iter, i0, by rw [h0]; simp⟩) n v (by rw [hL]; exact hn)
    (fun hc => by
      have := (parts h).2.2.2.1 v hc
      exact not_both hvn this)
    (fun hc => by
      rw [hL] at hc
      simp only [List.mem_map, List.mem_mapIdx] at hc
      obtain ⟨_, ⟨m, hm, rfl⟩, hc⟩ := hc
      have hm' : m < p.subnetworks := by
        have := congrArg List.length (parts h).2.2.1
        rw [List.length_map, List.length_range] at this
        omega
      have := h.uids.handlers m hm'
      rcases hv with rfl | rfl
      · exact this.2.1 hc
      · exact this.2.2 hc)
    e.uid (List.mem_map.2 ⟨_, hmem, rfl⟩) hin).1
  rw [hall] at hc
  rw [hc]
  have hcode := C122_user_code h.run
  rw [split_at hT rest] at hcode
  have hfed := fed_at (fun k t => given (if k = 0 then d.trainingImages t else labelSpikes d labelStep t)) (fun _ _ _ => rfl) _ _ _ _ _ _ hcode
  simp only [List.nil_append, List.flatMap_cons, List.flatMap_nil, List.append_nil, fedIn]
  rw [time_at h hT] at hfed ⊢
  rw [hfed, hL]
  have hn2 : n < 2 := (List.getElem?_eq_some_iff.1 hn).1
  simp [List.getD_eq_getElem?_getD, hn2]

omit [IsStrictOrderedRing F] in
private theorem label_given (h : TrainRun (N := N) be arith o p fresh a d labelStep winners maxSize u loggers observe draw advance u0 acts s is rest)
    {T : Nat} (hT : T < is.length) : given (labelSpikes d labelStep T) = (labelAt d labelStep T).toList := by
  have hlen := h.length
  have hs := h.data.steps
  have hlt : T / d.stepsPerFrame < d.frames.length := by
    have h1 : T < d.trainN * d.stepsPerFrame := by have : is.length ≤ d.trainN * d.stepsPerFrame := hlen; omega
    have := (Nat.div_lt_iff_lt_mul (by omega : 0 < d.stepsPerFrame)).2 h1
    have := h.data.parts
    omega
  unfold labelSpikes labelAt
  rw [if_neg (by omega)]
  split
  · rw [List.getElem?_eq_getElem hlt]; rfl
  · rfl

private theorem inputs_cases (h : TrainRun (N := N) be arith o p fresh a d labelStep winners maxSize u loggers observe draw advance u0 acts s is rest)
    {r w : UID} (hx : (r, w) ∈ trainInputs a u) : ∃ k < p.subnetworks, (r = fresh + 10 * k + 3 ∧ w = u.raster) ∨
      ((r = fresh + 10 * k + 4 ∨ r = fresh + 10 * k + 7 ∨ r = fresh + 10 * k + 9) ∧ w = u.labels) := by
  unfold trainInputs at hx
  rw [(parts h).1, (parts h).2.1] at hx
  rcases List.mem_append.1 hx with hx | hx
  · obtain ⟨x, hx, he⟩ := List.mem_map.1 hx
    obtain ⟨k, hk, rfl⟩ := List.mem_map.1 hx
    have he := Prod.mk.inj he
    exact ⟨k, List.mem_range.1 hk, .inl ⟨he.1.symm, he.2.symm⟩⟩
  · obtain ⟨x, hx, he⟩ := List.mem_map.1 hx
    obtain ⟨k, hk, hx⟩ := List.mem_flatMap.1 hx
    have he := Prod.mk.inj he
    rw [he.1] at hx
    simp only [List.mem_cons, List.not_mem_nil, or_false] at hx
    exact ⟨k, List.mem_range.1 hk, .inr ⟨hx, he.2.symm⟩⟩

/-- C167, images.  In every step of the training the trained projection of every subnetwork hears exactly one thing: the active pixels of this
sub-step of the current frame (nothing if there are none). -/
theorem C167_images (h : TrainRun (N := N) be arith o p fresh a d labelStep winners maxSize u loggers observe draw advance u0 acts s is rest)
    (T : Nat) (hT : T < is.length) (k : Nat) (hk : k < p.subnetworks) :
    ∃ (f : Nat × List Bool) (l : List Nat), d.frames[T / d.stepsPerFrame]? = some f ∧ l.Pairwise (· < ·) ∧
      (∀ x, x ∈ l ↔ PixelActive d.imageSize f.2 (T % d.stepsPerFrame) x) ∧
      heardBy is[T].out (fresh + 10 * k + 3) = message u.raster T l := by
  obtain ⟨part, f, l, h1, h2, h3, h4, h5, h6, _⟩ := C70_training d h.data h.some T
  have hs := h.data.steps
  have hlt : T / d.stepsPerFrame < d.trainN := by
    have hlen := h.length
    have h1 : T < d.trainN * d.stepsPerFrame := by have : is.length ≤ d.trainN * d.stepsPerFrame := hlen; omega
    exact (Nat.div_lt_iff_lt_mul (by omega : 0 < d.stepsPerFrame)).2 h1
  have hf : d.frames[T / d.stepsPerFrame]? = some f := by
    rw [h2, Nat.mod_eq_of_lt hlt] at h3
    unfold Data.Dataset.trainingData at h1
    split at h1
    · simp only [Outcome.ok.injEq] at h1
      rw [← h1, List.getElem?_take_of_lt hlt] at h3
      exact h3
    · cases h1
  refine ⟨f, l, hf, h5, h6, ?_⟩
  have key := channel h hT hk (e := ⟨fresh + 10 * k + 3, 0, fresh + 10 * k, 1, (false, resourceSyns (bodies p).raster)⟩)
    (by simp only [subProjs]; exact List.mem_cons_self) rfl 0 u.raster rfl
    (by
      unfold trainInputs
      rw [(parts h).1]
      exact List.mem_append_left _ (List.mem_map.2 ⟨_, List.mem_map.2 ⟨k, List.mem_range.2 hk, rfl⟩, rfl⟩))
    (by
      intro w hw
      obtain ⟨k', _, ⟨_, hc⟩ | ⟨hc, _⟩⟩ := inputs_cases h hw
      · exact hc
      · have hc : (fresh + 10 * k + 3 : Nat) = fresh + 10 * k' + 4 ∨ (fresh + 10 * k + 3 : Nat) = fresh + 10 * k' + 7 ∨
          (fresh + 10 * k + 3 : Nat) = fresh + 10 * k' + 9 := hc
        omega)
    (by intro m; show (fresh + 10 * k + 3 : Nat) ≠ fresh + 10 * m + 5; omega)
  rw [if_pos rfl, h4] at key
  exact key

/-- C167, labels.  The three projections that start at the labels hear in every step exactly the label of the current frame, once per frame, in
sub-step `labelStep`, and nothing else. -/
theorem C167_labels (h : TrainRun (N := N) be arith o p fresh a d labelStep winners maxSize u loggers observe draw advance u0 acts s is rest)
    (T : Nat) (hT : T < is.length) (k : Nat) (hk : k < p.subnetworks) (r : Nat) (hr : r = 4 ∨ r = 7 ∨ r = 9) :
    heardBy is[T].out (fresh + 10 * k + r) = message u.labels T (labelAt d labelStep T).toList := by
  have main : ∀ e ∈ subProjs (bodies p) (fresh + 10 * k), e.pre = 0 → e.uid = fresh + 10 * k + r →
      heardBy is[T].out (fresh + 10 * k + r) = message u.labels T (labelAt d labelStep T).toList := by
    intro e he hpre hu
    have key := channel h hT hk he hpre 1 u.labels rfl
      (by
        rw [hu]
        unfold trainInputs
        rw [(parts h).2.1]
        refine List.mem_append_right _ (List.mem_map.2 ⟨_, List.mem_flatMap.2 ⟨k, List.mem_range.2 hk, ?_⟩, rfl⟩)
        rcases hr with rfl | rfl | rfl <;> simp)
      (by
        intro w hw
        rw [hu] at hw
        obtain ⟨k', _, ⟨hc, _⟩ | ⟨_, hc⟩⟩ := inputs_cases h hw
        · have hc : (fresh + 10 * k + r : Nat) = fresh + 10 * k' + 3 := hc
          omega
        · exact hc)
      (by
        intro m
        rw [hu]
        show (fresh + 10 * k + r : Nat) ≠ fresh + 10 * m + 5
        omega)
    rw [if_neg (by decide), label_given h hT, hu] at key
    exact key
  rcases hr with rfl | rfl | rfl
  · exact main _ (by simp only [subProjs]; exact .tail _ List.mem_cons_self) rfl rfl
  · exact main _ (by simp only [subProjs]; exact .tail _ (.tail _ (.tail _ (.tail _ List.mem_cons_self)))) rfl rfl
  · exact main _ (by simp only [subProjs]; exact .tail _ (.tail _ (.tail _ (.tail _ (.tail _ (.tail _ List.mem_cons_self)))))) rfl rfl

private theorem wta_length (h : TrainRun (N := N) be arith o p fresh a d labelStep winners maxSize u loggers observe draw advance u0 acts s is rest) :
    a.wtaData.length = p.subnetworks := by
  have := congrArg List.length (parts h).2.2.1
  rw [List.length_map, List.length_range] at this
  exact this

/-- C167, winners.  In the step after a step the projection into the output population of a subnetwork hears exactly winners among the input neurons
of the subnetwork that fired: from every column (C166_network: the groups of the borders) `winners`, or all if there are fewer. -/
theorem C167_winners (h : TrainRun (N := N) be arith o p fresh a d labelStep winners maxSize u loggers observe draw advance u0 acts s is rest)
    (hm : p.classes * winners ≤ maxSize) (T : Nat) (hT : T + 1 < is.length) (k : Nat) (hk : k < p.subnetworks) :
    ∃ ans, Winners a.wtaBorders winners (firedIn is[T].out (fresh + 10 * k)) ans ∧
      heardBy is[T + 1].out (fresh + 10 * k + 5) = message (u.handler k) (T + 1) ans := by
  have hw := wta_length h
  have hrun := h.run
  unfold trainCode trainLayout at hrun
  rw [← hw] at hrun
  have hL := layout_eq a u loggers
  unfold trainLayout at hL
  have hhands : ∀ v, v ∈ (addWtaHandlers u.handler 0 ⟨[u.raster, u.labels], [(u.out, a.builder.outputs)], [], loggers⟩ a.wtaData).1.handlers.map (·.uid) →
      ∃ n < p.subnetworks, v = u.handler n := by
    intro v hv
    rw [hL] at hv
    simp only [List.mem_map, List.mem_mapIdx] at hv
    obtain ⟨_, ⟨m, hm', rfl⟩, rfl⟩ := hv
    exact ⟨m, by omega, rfl⟩
  have hout : ∀ v : Nat, fresh ≤ v ∧ v < fresh + 10 * p.subnetworks → v ∉ ([u.raster, u.labels] : List UID) ∧
      v ∉ (addWtaHandlers u.handler 0 ⟨[u.raster, u.labels], [(u.out, a.builder.outputs)], [], loggers⟩ a.wtaData).1.handlers.map (·.uid) := by
    intro v hv
    refine ⟨fun hc => ?_, fun hc => ?_⟩
    · simp only [List.mem_cons, List.not_mem_nil, or_false] at hc
      rcases hc with hc | hc
      · exact not_both h.uids.raster (hc ▸ hv)
      · exact not_both h.uids.labels (hc ▸ hv)
    · obtain ⟨n, hn, hc⟩ := hhands v hc
      exact not_both (h.uids.handlers n hn).1 (hc ▸ hv)
  have hsplit : is.map Item.iter ++ rest = (is.take T).map Item.iter ++ Item.iter is[T] :: ([] ++ Item.iter is[T + 1] ::
      ((is.drop (T + 2)).map Item.iter ++ rest)) := by
    rw [split_at (by omega : T < is.length) rest, List.nil_append, List.drop_eq_getElem_cons hT]
    rfl
  have hself := hout (fresh + 10 * k) ⟨by omega, by omega⟩
  obtain ⟨_, ans, hwin, hrec⟩ := C159_winners_partial hrun
    (by rw [(parts h).2.2.2.2.2.2, List.length_map, List.length_range]; exact hm)
    (by
      rw [hL]
      have he : (a.wtaData.mapIdx (fun n d => (⟨u.handler n, d.1, d.2⟩ : Handler))).map (·.uid) = (List.range p.subnetworks).map u.handler := by
        apply List.ext_getElem
        · simp [hw]
        · intro n h1 h2
          simp
      show ((a.wtaData.mapIdx (fun n d => (⟨u.handler n, d.1, d.2⟩ : Handler))).map (·.uid)).Nodup
      rw [he]
      exact List.Nodup.map_on (fun x hx y hy hxy => h.uids.each x (List.mem_range.1 hx) y (List.mem_range.1 hy) hxy) List.nodup_range)
    k (fresh + 10 * k) [fresh + 10 * k + 5]
    (by rw [(parts h).2.2.1, List.getElem?_map, List.getElem?_range hk]; rfl)
    hself.1 hself.2 (u.handler k)
    (by rw [addWta_spec]; simp [hw, hk])
    (fun hc => by
      simp only [List.mem_cons, List.not_mem_nil, or_false] at hc
      rcases hc with hc | hc
      · exact (h.uids.handlers k hk).2.1 hc
      · exact (h.uids.handlers k hk).2.2 hc)
    (fun hc => not_both (h.uids.handlers k hk).1 ((parts h).2.2.2.1 _ hc)) hsplit rfl
  refine ⟨ans, hwin, ?_⟩
  have he : (⟨fresh + 10 * k + 5, 0, fresh + 10 * k + 1, 0, (true, deltaSyns (bodies p).toOutput)⟩ : ProjEntity (JBody F)) ∈
      subProjs (bodies p) (fresh + 10 * k) := by simp only [subProjs]; exact .tail _ (.tail _ List.mem_cons_self)
  have := hrec (fresh + 10 * k + 5) (by simp) (List.mem_map.2 ⟨_, projs_mem h k hk he, rfl⟩)
  rw [time_at h hT] at this
  rw [← this, eq_comm, List.filter_eq_self]
  intro x hx
  rw [decide_eq_true_eq]
  rcases List.mem_append.1 (hears_only h hT hk he rfl hx) with hi | hi
  · exfalso
    obtain ⟨k', _, ⟨hc, _⟩ | ⟨hc, _⟩⟩ := inputs_cases h hi
    · have hc : (fresh + 10 * k + 5 : Nat) = fresh + 10 * k' + 3 := hc
      omega
    · have hc : (fresh + 10 * k + 5 : Nat) = fresh + 10 * k' + 4 ∨ (fresh + 10 * k + 5 : Nat) = fresh + 10 * k' + 7 ∨
          (fresh + 10 * k + 5 : Nat) = fresh + 10 * k' + 9 := hc
      omega
  · obtain ⟨m, _, hm1, hm2⟩ := handler_inputs h hi
    have hm1 : (fresh + 10 * k + 5 : Nat) = fresh + 10 * m + 5 := hm1
    have : m = k := by omega
    rw [hm2, this]

/-! ## Rewards -/

omit [Field F] [LinearOrder F] [IsStrictOrderedRing F] in
theorem filter_flat {α β : Type} {f : α → List β} {q : α → Bool} {P Q : β → Bool} : ∀ (ms : List α),
    (∀ m ∈ ms, (q m = true → ∀ x ∈ f m, P x = Q x) ∧ (q m = false → ∀ x ∈ f m, P x = false)) →
    (ms.flatMap f).filter P = ((ms.filter q).flatMap f).filter Q
  | [], _ => rfl
  | m :: ms, h => by
    have h0 := h m (by simp)
    have ih := filter_flat ms (fun x hx => h x (by simp [hx]))
    rw [List.flatMap_cons, List.filter_append, ih]
    cases hq : q m with
    | true =>
      rw [List.filter_cons_of_pos hq, List.flatMap_cons, List.filter_append]
      congr 1
      exact List.filter_congr (h0.1 hq)
    | false =>
      rw [List.filter_cons_of_neg (by rw [hq]; decide)]
      rw [List.filter_eq_nil_iff.2 (fun x hx => by rw [h0.2 hq x hx]; decide), List.nil_append]

omit [Field F] [LinearOrder F] [IsStrictOrderedRing F] in
private theorem count_label (o : Option Nat) (v : UID) (t c : Nat) : spikesOf c (message v t o.toList) = if o = some c then 1 else 0 := by
  cases o with
  | none => simp [message, spikesOf]
  | some x =>
    by_cases hx : x = c
    · subst hx; simp [message, spikesOf]
    · simp [message, spikesOf, hx]

omit [LinearOrder F] [IsStrictOrderedRing F] in
theorem find_all (b : Bodies F) (f : Nat) (e : ProjEntity (JBody F)) (he : e ∈ subProjs b f) : ExactFind (wired e.body.2) := by
  simp only [subProjs, List.mem_cons, List.not_mem_nil, or_false] at he
  rcases he with rfl | rfl | rfl | rfl | rfl | rfl | rfl
  · exact resource_find _
  all_goals exact delta_find _

private theorem all_draw (h : TrainRun (N := N) be arith o p fresh a d labelStep winners maxSize u loggers observe draw advance u0 acts s is rest)
    {j : Learn.Proj F} (hj : j ∈ loadProjs a.builder.network) : ∃ k < p.subnetworks, ∃ ar ∈ arrows p (fresh + 10 * k), Draws j ar ∧
      ExactFind (wired j.syns) := by
  obtain ⟨k, hk, e, he, rfl⟩ := proj_cases h hj
  have hd := sub_draws p (fresh + 10 * k)
  obtain ⟨n, hn, rfl⟩ := List.getElem_of_mem he
  have h1 : n < (arrows p (fresh + 10 * k)).length := by rw [← hd.length_eq, List.length_map]; exact hn
  have hdr := hd.get (by rw [List.length_map]; exact hn) h1
  refine ⟨k, hk, _, List.getElem_mem h1, by simpa using hdr, ?_⟩
  exact find_all _ _ _ he

private theorem all_sound (h : TrainRun (N := N) be arith o p fresh a d labelStep winners maxSize u loggers observe draw advance u0 acts s is rest)
    {j : Learn.Proj F} (hj : j ∈ loadProjs a.builder.network) (t : Nat) (ht : t + 4 < two64) : Sound t (wired j.syns) := by
  obtain ⟨k, hk, ar, har, hd, _⟩ := all_draw h hj
  intro y hy
  have hcon : ar.connects y.source y.target := by
    by_contra hn
    exact hd.only _ _ hn (List.mem_map.2 ⟨y, hy, rfl⟩)
  obtain ⟨_, hdel, _⟩ := hd.alike y hy
  have hsm := h.fit.small
  have hpx := h.fit.pixels
  have hcl : p.classes ≤ p.inputs := Nat.le_mul_of_pos_left _ h.fit.column
  have hcol : ∀ c i : Nat, InColumn p c i → c < p.inputs ∧ i < p.inputs := by
    rintro c i ⟨h1, rfl⟩
    exact ⟨Nat.lt_of_le_of_lt (Nat.div_le_self _ _) h1, h1⟩
  have h32 : Delta.two32 = 2 ^ 32 := by decide
  rw [h32]
  have ends : y.source < 2 ^ 32 ∧ y.target < 2 ^ 32 := by
    simp only [arrows, List.mem_cons, List.not_mem_nil, or_false] at har
    rcases har with rfl | rfl | rfl | rfl | rfl | rfl | rfl
    · have hcon : _ ∧ _ := hcon
      omega
    · have := hcol _ _ hcon; omega
    · have := hcol _ _ hcon; omega
    · have hcon : _ ∧ _ := hcon
      omega
    · have hcon : _ ∧ _ := hcon
      omega
    · have := hcol _ _ hcon; omega
    · have := hcol _ _ hcon; omega
  have hdl : 1 ≤ ar.delay ∧ ar.delay ≤ 4 := by
    simp only [arrows, List.mem_cons, List.not_mem_nil, or_false] at har
    rcases har with rfl | rfl | rfl | rfl | rfl | rfl | rfl <;> simp
  rw [hdel]
  refine ⟨ends.1, ends.2, hdl.1, ?_⟩
  generalize two64 = b at ht ⊢
  omega

/-- C167, rewards.  Input neuron `n` gets dopamine in step `T` exactly if three steps earlier the label of its own column was shown - once, 0.18 -
and never otherwise: neither the images nor the activity of the network reward anybody. -/
theorem C167_reward (h : TrainRun (N := N) .single arith o p fresh a d labelStep winners maxSize u loggers observe draw advance u0 acts s is rest)
    (hrest : iters rest = []) (hfit : d.stepsTraining + 4 < two64) (hf : 0 < fresh) (T : Nat) (hT : T < is.length) (k : Nat) (hk : k < p.subnetworks) (n : Nat)
    (hn : n < p.inputs) :
    ((givenTo is[T].out (fresh + 10 * k)).flatMap (fun m => m.impacts)).filter
        (fun im => decide (im.synapseType = .dopamine ∧ im.postsynapticNeuronIndex = n)) =
      if 3 ≤ T ∧ labelAt d labelStep (T - 3) = some (n / p.perColumn) then [⟨n, 18 / 100, .dopamine, n / p.perColumn, n⟩] else [] := by
  obtain ⟨envs, sB, hl, _, _, hexts, hno⟩ := C119_learn_run h.run
  have hiters : iters (is.map Item.iter ++ rest) = is := by
    have := iters_only is
    unfold iters at this hrest ⊢
    rw [List.filterMap_append, this, hrest, List.append_nil]
  rw [hiters] at hl
  have hlen : envs.length = is.length := by
    have h1 := hl.length
    rw [List.length_map] at h1
    exact h1.symm
  have hbound : envs.length + 4 < two64 := by
    have := h.length
    generalize two64 = b at hfit ⊢
    omega
  have hT' : T < (is.map (fun i => i.out)).length := by simpa using hT
  have hgT : (is.map (fun i => i.out))[T] = is[T].out := by simp
  -- the population and the projection
  have hp : (Learn.Pop.trained (fresh + 10 * k) (@resBlifat F arith) blifatOps (List.replicate p.inputs p.inputNeuron) : Learn.Pop N (Blifat F) F) ∈
      loadPops arith a.builder.network := by
    unfold loadPops
    rw [(parts h).2.2.2.2.2.1]
    exact List.mem_map.2 ⟨⟨fresh + 10 * k, 1, List.replicate p.inputs p.inputNeuron⟩,
      List.mem_flatMap.2 ⟨k, List.mem_range.2 hk, by simp only [subPops]; exact List.mem_cons_self⟩, rfl⟩
  have he : (⟨fresh + 10 * k + 4, 0, fresh + 10 * k, 0, (true, deltaSyns (bodies p).reward)⟩ : ProjEntity (JBody F)) ∈
      subProjs (bodies p) (fresh + 10 * k) := by simp only [subProjs]; exact .tail _ List.mem_cons_self
  have hj := projs_mem h k hk he
  obtain ⟨q, hq⟩ := List.getElem?_of_mem hj
  have hforge : ∀ v : UID, ∀ env ∈ envs, ∀ (e : Nat) (im : SynapticImpactMessage F), Bus.Op.send e (.impact im) ∈ env → im.header.senderUid ≠ v :=
    fun v env henv e im hm => absurd hm (hno env henv e im)
  have hp0 : (fresh + 10 * k : Nat) ≠ 0 := by omega
  have hsyn : ∀ c : Nat, (wired (deltaSyns (bodies p).reward)).synapses[c]? =
      if c < p.inputs then some ⟨c / p.perColumn, c, 18 / 100, 3, .dopamine⟩ else none := by
    intro c
    simp only [wired, deltaSyns, bodies, down, List.getElem?_map, List.map_map]
    by_cases hc : c < p.inputs
    · rw [List.getElem?_range hc, if_pos hc]; rfl
    · rw [if_neg hc, List.getElem?_eq_none (by simpa using hc)]; rfl
  obtain ⟨hthrough, honly⟩ := C113_end_to_end hl _ hp hp0 q _ hq rfl (delta_find _) (all_sound h hj _ hbound) (hforge _) T hT'
  rw [hgT] at hthrough honly
  have hsame : ((givenTo is[T].out (fresh + 10 * k)).flatMap (fun m => m.impacts)).filter
        (fun im => decide (im.synapseType = .dopamine ∧ im.postsynapticNeuronIndex = n)) =
      impactsThrough (fresh + 10 * k + 4) n (givenTo is[T].out (fresh + 10 * k)) := by
    unfold impactsThrough
    refine filter_flat _ (fun m hm => ⟨fun hq im him => ?_, fun hq im him => ?_⟩)
    · obtain ⟨y, hy, hie⟩ := honly m hm (by simpa using hq) im him
      change (wired (deltaSyns (bodies p).reward)).synapses[im.connectionIndex]? = some y at hy
      rw [hsyn] at hy
      split at hy
      · simp only [Option.some.injEq] at hy
        have h1 : im.synapseType = .dopamine := by rw [congrArg SynapticImpact.synapseType hie, ← hy]
        have h2 : im.postsynapticNeuronIndex = im.connectionIndex := by rw [congrArg SynapticImpact.postsynapticNeuronIndex hie, ← hy]
        rw [h1, h2]
        by_cases hc : im.connectionIndex = n <;> simp [hc]
      · cases hy
    · obtain ⟨_, j', hj', hpost, hsend⟩ := C113_senders hl _ hp T hT' m (by rw [hgT]; exact hm)
      obtain ⟨q', hq'⟩ := List.getElem?_of_mem hj'
      obtain ⟨k', hk', ar, har, hd, hfind⟩ := all_draw h hj'
      obtain ⟨y, hy, hie⟩ := (C113_end_to_end hl _ hp hp0 q' j' hq' hpost hfind (all_sound h hj' _ hbound) (hforge _) T hT').2 m
        (by rw [hgT]; exact hm) hsend.symm im him
      have hty := (hd.alike y (List.mem_of_getElem? hy)).2.2
      rw [decide_eq_false_iff_not]
      rintro ⟨hdop, _⟩
      have hydop : ar.type = .dopamine := by rw [← hty, ← hdop, hie]
      have hu := hd.uid
      have hpo := hd.post
      simp only [arrows, List.mem_cons, List.not_mem_nil, or_false] at har
      rcases har with rfl | rfl | rfl | rfl | rfl | rfl | rfl <;> try cases hydop
      rw [hpost] at hpo
      have hpo : (fresh + 10 * k : Nat) = fresh + 10 * k' := hpo
      have hkk : k' = k := by omega
      subst hkk
      rw [← hsend, hu] at hq
      simp at hq
  rw [hsame]
  have hy := hsyn n
  rw [if_pos hn] at hy
  obtain ⟨hlt, hge⟩ := hthrough n _ hy
  by_cases h3 : 3 ≤ T
  · obtain ⟨s1, os1, j1, w, hr1, hj1, hw1, heq⟩ := hge h3
    have hq1 := C58_run_delta hr1 q _ hq _ rfl
    obtain ⟨j1', hj1', _, hsyns⟩ := hq1
    rw [hj1] at hj1'
    simp only [Option.some.injEq] at hj1'
    subst hj1'
    rw [hsyns] at hw1
    have hww : w = ⟨n / p.perColumn, n, 18 / 100, 3, .dopamine⟩ := by
      have := hy.symm.trans hw1
      simpa using this.symm
    have hT3 : T - 3 < is.length := by omega
    have hget : (is.map (fun i => i.out)).getD (T - 3) ⟨[], [], [], []⟩ = is[T - 3].out := by
      rw [List.getD_eq_getElem?_getD, List.getElem?_map, List.getElem?_eq_getElem hT3]; rfl
    have hheard := C167_labels h (T - 3) hT3 k hk 4 (.inl rfl)
    refine heq.trans ?_
    show List.replicate (spikesOf (n / p.perColumn) (heardBy ((is.map (fun i => i.out)).getD (T - 3) ⟨[], [], [], []⟩) (fresh + 10 * k + 4))) _ = _
    rw [hget, hww, hheard, count_label]
    by_cases hlab : labelAt d labelStep (T - 3) = some (n / p.perColumn)
    · rw [if_pos hlab, if_pos ⟨h3, hlab⟩]; rfl
    · rw [if_neg hlab, if_neg (fun hc => hlab hc.2)]; rfl
  · rw [if_neg (fun hc => h3 hc.1)]
    exact hlt (by show T < 3; omega)

end

namespace MnistEx

/-- UIDs of the program: the channels 50 and 51, handlers from 70. -/
def u : Uids := ⟨50, 51, 60, fun n => 70 + n⟩

theorem uids : NewUids p 5 u := by
  refine ⟨by decide, by decide, by decide, fun n hn => ⟨.inr ?_, ?_, ?_⟩, fun m _ n _ h => ?_⟩
  · show 5 + 10 * 2 ≤ 70 + n; omega
  · show 70 + n ≠ 50; omega
  · show 70 + n ≠ 51; omega
  · have : 70 + m = 70 + n := h
    omega

/-- The training runs exist: ten steps and the call that ends them. -/
theorem run : ∃ (a : Annotated ℚ) (acts : List (Act Nat)) (s : Prog.State Nat (Learn.Pop (Lif ℚ) (Blifat ℚ) ℚ) (Learn.Proj ℚ) ℚ)
    (is : List (Iter ℚ)) (rest : List (Item ℚ)), is.length = 10 ∧ iters rest = [] ∧
    TrainRun .single arith StdpEx.o p 5 a d 3 1 1000 u [] (fun _ u _ => u) (fun _ _ _ _ => 0) (fun _ u => u + 1) 0 acts s is rest := by
  obtain ⟨a, ha, _⟩ := C166_network p fit 5
  obtain ⟨s, is, fed, acts, _, hl, hr⟩ := C166_training (σ := Nat) (N := Lif ℚ) arith rfl p fit 5 a ha StdpEx.o d 3 1 1000 u []
    (fun _ u _ => u) (fun _ _ _ _ => 0) (fun _ u => u + 1) 0
  exact ⟨a, acts, s, is, _, hl, rfl, fit, ha, uids, data, by decide, by decide, by rw [hl], hr⟩

example : d.stepsTraining + 4 < two64 := by decide
/-- In this run input neuron 3, of the column of class 1, is rewarded in step 6 and neuron 0 is not. -/
example : labelAt d 3 (6 - 3) = some (3 / p.perColumn) ∧ labelAt d 3 (6 - 3) ≠ some (0 / p.perColumn) := by decide

/-- The input neurons of the first subnetwork that fire in a step, the winners its output projection hears, the input neurons rewarded. -/
def shown (i : Iter ℚ) : List Nat × List (List Nat) × List Nat :=
  (firedIn i.out 5, (heardBy i.out 10).map (fun m => m.neuronIndexes),
    (((givenTo i.out 5).flatMap (fun m => m.impacts)).filter (fun im => decide (im.synapseType = .dopamine))).map (fun im => im.postsynapticNeuronIndex))
/-- The training run. -/
def result : List (List Nat × List (List Nat) × List Nat) := match construct p 5 with
    | .ok a => match Prog.start ((Prog.Backend.single : Prog.Backend ℚ).step StdpEx.o) (trainLayout a u [])
          (trainCode p a d 3 1 1000 (fun _ (u : Nat) _ => u) (fun _ _ _ _ => 0) (fun _ u => u + 1)) (trainPred d) 11
          (Prog.boot (Learn.machine (N := Lif ℚ) StdpEx.o) (trainLayout a u []) (loadPops arith a.builder.network) (loadProjs a.builder.network)
            (trainInputs a u) 0) with
      | some (.ok r) => (iters r.2).map shown
      | _ => []
    | _ => []
/-- Something happens in it: spikes, winners, rewards. -/
example : result = [([], [], []), ([], [], []), ([], [], []), ([], [], []), ([0, 1, 2, 3], [], []), ([2, 3], [[0, 2]], []),
  ([0, 1, 2, 3], [[2]], [2, 3]), ([0, 1], [[0, 2]], []), ([0, 1, 2, 3], [[0]], []), ([], [[0, 2]], [])] := by decide +kernel

end MnistEx

end Knp.Props
