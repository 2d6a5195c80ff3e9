import Verif.Props.MnistTraining
import Verif.Props.ProgramCopy
import Verif.Props.Evaluation

/-!
# C168: the inference of the MNIST example

`prepare_network_for_inference` and `infer_network` of `/repo/examples/mnist-learn` (BLIFAT), on the network left by a training.
-/

namespace Knp.Props
open Knp Knp.Spec Knp.Neurons Knp.Stdp Knp.Mnist Knp.Prog

section
variable {σ N F : Type} [Field F] [LinearOrder F] [IsStrictOrderedRing F]

/-- `pops0` and `projs0` are what the training backend holds after some training run of the example (C167), finished or not. -/
def TrainedNet (arith : Arith F) (o : Ops F) (p : Params F) (fresh : Nat) (a : Annotated F) (pops0 : List (Learn.Pop N (Blifat F) F))
    (projs0 : List (Learn.Proj F)) : Prop :=
  ∃ (τ : Type) (d : Data.Dataset) (labelStep winners maxSize : Nat) (u : Uids) (loggers : List Observer) (observe : Nat → τ → List (Message F) → τ)
    (draw : Nat → τ → Nat → Nat → Nat) (advance : Nat → τ → τ) (u0 : τ) (acts : List (Act τ))
    (s : Prog.State τ (Learn.Pop N (Blifat F) F) (Learn.Proj F) F) (is : List (Iter F)) (rest : List (Item F)),
    TrainRun .single arith o p fresh a d labelStep winners maxSize u loggers observe draw advance u0 acts s is rest ∧
    s.core.pops = pops0 ∧ s.core.projs = projs0

variable {arith : Arith F} {o : Ops F} {p : Params F} {fresh : Nat} {a : Annotated F} {pops0 : List (Learn.Pop N (Blifat F) F)}
  {projs0 : List (Learn.Proj F)}

omit [IsStrictOrderedRing F] in
private theorem keeps (h : TrainedNet arith o p fresh a pops0 projs0) : Fit p ∧ construct p fresh = .ok a ∧
    List.Forall₂ Learn.Stable (loadPops arith a.builder.network) pops0 ∧ List.Forall₂ Learn.Grown (loadProjs a.builder.network) projs0 := by
  obtain ⟨_, _, _, _, _, _, _, _, _, _, _, _, _, _, _, h, rfl, rfl⟩ := h
  obtain ⟨h1, h2, _⟩ := prog_keeps h.run
  exact ⟨h.fit, h.built, h1, h2⟩

/-- The parts of the network. -/
private theorem parts (h : Fit p) (ha : construct p fresh = .ok a) :
    a.fromRaster = (List.range p.subnetworks).map (fun s => fresh + 10 * s + 3) ∧
    a.wtaData = (List.range p.subnetworks).map (fun s => ([fresh + 10 * s], [fresh + 10 * s + 5])) ∧
    a.builder.outputs = (List.range p.subnetworks).map (fun s => fresh + 10 * s + 1) ∧
    a.builder.network.projections = (List.range p.subnetworks).flatMap (fun s => subProjs (bodies p) (fresh + 10 * s)) ∧
    a.builder.network.populations = (List.range p.subnetworks).flatMap (fun s => subPops p (fresh + 10 * s)) ∧
    a.wtaBorders = (List.range p.classes).map (fun i => p.perColumn * (i + 1)) ∧
    a.builder.keepPops = (List.range p.subnetworks).flatMap (fun s => [fresh + 10 * s, fresh + 10 * s + 1]) ∧
    a.builder.keepProjs = (List.range p.subnetworks).flatMap (fun s => [fresh + 10 * s + 3, fresh + 10 * s + 5]) := by
  obtain ⟨infos, hc⟩ := construct_eq p h fresh
  rw [hc] at ha
  simp only [Outcome.ok.injEq] at ha
  subst ha
  exact ⟨rfl, rfl, rfl, rfl, rfl, rfl, rfl, rfl⟩

omit [Field F] [LinearOrder F] [IsStrictOrderedRing F] in
private theorem in_block {ks : List Nat} (hks : ∀ k ∈ ks, k < 10) (n s r : Nat) (hs : s < n) (hr : r < 10) :
    ((List.range n).flatMap (fun s => ks.map (fun k => fresh + 10 * s + k))).contains (fresh + 10 * s + r) = decide (r ∈ ks) := by
  rw [Bool.eq_iff_iff, List.contains_iff_mem, decide_eq_true_eq, List.mem_flatMap]
  constructor
  · rintro ⟨s', _, h⟩
    obtain ⟨k, hk, he⟩ := List.mem_map.1 h
    have := hks k hk
    have : k = r := by omega
    exact this ▸ hk
  · intro h
    exact ⟨s, List.mem_range.2 hs, List.mem_map.2 ⟨r, h, rfl⟩⟩

omit [Field F] [LinearOrder F] [IsStrictOrderedRing F] in
private theorem flat_filter {α β : Type} {P : β → Bool} {f g : α → List β} : ∀ (l : List α), (∀ x ∈ l, (f x).filter P = g x) →
    (l.flatMap f).filter P = l.flatMap g
  | [], _ => rfl
  | x :: l, h => by
    rw [List.flatMap_cons, List.flatMap_cons, List.filter_append, h x (by simp), flat_filter l (fun y hy => h y (by simp [hy]))]

omit [Field F] [LinearOrder F] [IsStrictOrderedRing F] in
private theorem skeleton_ends {x y : Delta.Proj F} (h : Learn.skeleton x = Learn.skeleton y) :
    x.synapses.map (fun s => (s.source, s.target)) = y.synapses.map (fun s => (s.source, s.target)) := by
  have := congrArg (fun z => z.1.map (fun w : Nat × Nat × Nat × OutputType => (w.1, w.2.1))) h
  simpa [Learn.skeleton, Function.comp_def] using this

omit [Field F] [LinearOrder F] [IsStrictOrderedRing F] in
theorem kept_of {j j' : Learn.Proj F} {ar : Arrow F} (hd : Draws j ar) (hg : Learn.Grown j j') :
    Kept { j' with queue := [], locked := true } ar where
  uid := by rw [← hd.uid, ← hg.ident]
  pre := by rw [← hd.pre, ← hg.ident]
  post := by rw [← hd.post, ← hg.ident]
  forced := by rw [← hd.forced, ← hg.ident]
  locked := rfl
  plain := by
    intro ht
    obtain ⟨dd, hs⟩ := hd.plain ht
    have hs' := hg.plain dd hs
    refine ⟨⟨dd, hs'⟩, fun y hy => ?_⟩
    refine (hd.alike y ?_).1
    rw [hs]
    change y ∈ (wired j'.syns).synapses at hy
    rw [hs'] at hy
    exact hy
  learns := by
    intro ht
    obtain ⟨ss, x, y, hs⟩ := hd.learns ht
    obtain ⟨ss', hs'⟩ := hg.learns _ _ _ _ hs
    exact ⟨ss', x, y, hs'⟩
  fresh := rfl
  alike := by
    intro y hy
    obtain ⟨k, hk⟩ := List.getElem?_of_mem hy
    obtain ⟨s', h1, _, _, h4, h5⟩ := Learn.skeleton_get hg.skeleton.symm hk
    have := hd.alike s' (List.mem_of_getElem? h1)
    rw [← h4, ← h5]
    exact this.2
  once := by
    intro m n hc
    show ((wired j'.syns).synapses.map (fun y => (y.source, y.target))).count (m, n) = 1
    rw [skeleton_ends hg.skeleton]
    exact hd.once m n hc
  only := by
    intro m n hc
    show (m, n) ∉ (wired j'.syns).synapses.map (fun y => (y.source, y.target))
    rw [skeleton_ends hg.skeleton]
    exact hd.only m n hc

/-- C168, the network for inference.  What `prepare_network_for_inference` takes out of the training backend, after any training, and the inference
backend works with: of every subnetwork the input and the output population, with all their neurons as the training left them; the projection
from the images with all its synapses as the training left them, and the projection into the output population; both locked, with nothing
waiting in them.  Nothing of the gates, the labels and the rewards is left. -/
theorem C168_restored (h : TrainedNet arith o p fresh a pops0 projs0) :
    (restoredPops a pops0).map (fun q => (q.uid, popSize q)) = (List.range p.subnetworks).flatMap (fun s =>
      [(fresh + 10 * s, p.inputs), (fresh + 10 * s + 1, p.classes)]) ∧
    (∀ q ∈ restoredPops a pops0, q ∈ pops0) ∧
    List.Forall₂ Kept (restoredProjs a projs0) ((List.range p.subnetworks).flatMap (fun s => keptArrows p (fresh + 10 * s))) ∧
    ∀ j ∈ restoredProjs a projs0, ∃ j0 ∈ projs0, j0.ident = j.ident ∧ j0.syns = j.syns := by
  obtain ⟨hfit, ha, hp, hj⟩ := keeps h
  obtain ⟨_, _, _, _, _, _, hkp, hkj⟩ := parts hfit ha
  obtain ⟨a', ha', hpops, hdraw, _⟩ := C166_network p hfit fresh
  rw [ha] at ha'
  simp only [Outcome.ok.injEq] at ha'
  subst ha'
  refine ⟨?_, fun q hq => (List.mem_filter.1 hq).1, ?_, ?_⟩
  · have hsame : pops0.map (fun q => (q.uid, popSize q)) = (List.range p.subnetworks).flatMap (fun s =>
        [(fresh + 10 * s, p.inputs), (fresh + 10 * s + 1, p.classes), (fresh + 10 * s + 2, p.classes)]) := by
      rw [← hpops]
      have : (loadPops (N := N) arith a.builder.network).map (fun q => (q.uid, popSize q)) =
          a.builder.network.populations.map (fun e => (e.uid, e.body.length)) := by
        unfold loadPops
        rw [List.map_map]
        rfl
      rw [← this]
      generalize loadPops (N := N) arith a.builder.network = l at hp
      clear this hpops hdraw h
      induction hp with
      | nil => rfl
      | @cons x y _ _ hxy _ ih =>
        rw [List.map_cons, List.map_cons, ih]
        congr 1
        rw [hxy.uid, Learn.size_eq, Learn.size_eq, hxy.size]
    unfold restoredPops
    have hf : ∀ l : List (Learn.Pop N (Blifat F) F), (l.filter (fun q => a.builder.keepPops.contains q.uid)).map (fun q => (q.uid, popSize q)) =
        (l.map (fun q => (q.uid, popSize q))).filter (fun x => a.builder.keepPops.contains x.1) := by
      intro l
      rw [List.filter_map]
      rfl
    rw [hf, hsame]
    apply flat_filter
    intro s hs
    have hs := List.mem_range.1 hs
    have hin := fun r hr => in_block (fresh := fresh) (ks := [0, 1]) (by decide) p.subnetworks s r hs hr
    have h0 := hin 0 (by decide)
    have h1 := hin 1 (by decide)
    have h2 := hin 2 (by decide)
    simp only [List.map_cons, List.map_nil, Nat.add_zero] at h0 h1 h2
    rw [hkp]
    rw [List.filter_cons_of_pos (by rw [h0]; decide), List.filter_cons_of_pos (by rw [h1]; decide), List.filter_cons_of_neg (by rw [h2]; decide)]
    rfl
  · have hR : List.Forall₂ (fun (j' : Learn.Proj F) (ar : Arrow F) => Kept { j' with queue := [], locked := true } ar) projs0
        ((List.range p.subnetworks).flatMap (fun s => arrows p (fresh + 10 * s))) := by
      generalize loadProjs a.builder.network = l at hj hdraw
      generalize (List.range p.subnetworks).flatMap (fun s => arrows p (fresh + 10 * s)) = m at hdraw
      clear hp hpops h
      induction hj generalizing m with
      | nil => cases hdraw; exact .nil
      | cons hxy _ ih =>
        cases hdraw with
        | cons hd hrest => exact .cons (kept_of hd hxy) (ih _ hrest)
    have hfil := List.rel_filter (R := fun (j' : Learn.Proj F) (ar : Arrow F) => Kept { j' with queue := [], locked := true } ar)
      (p := fun j => a.builder.keepProjs.contains j.ident.uid) (q := fun ar => a.builder.keepProjs.contains ar.uid)
      (fun j ar hk => by
        have : j.ident.uid = ar.uid := hk.uid
        show a.builder.keepProjs.contains j.ident.uid = true ↔ a.builder.keepProjs.contains ar.uid = true
        rw [this]) hR
    unfold restoredProjs
    rw [List.forall₂_map_left_iff]
    have he : ((List.range p.subnetworks).flatMap (fun s => arrows p (fresh + 10 * s))).filter (fun ar => a.builder.keepProjs.contains ar.uid) =
        (List.range p.subnetworks).flatMap (fun s => keptArrows p (fresh + 10 * s)) := by
      apply flat_filter
      intro s hs
      have hs := List.mem_range.1 hs
      have hin := fun r hr => in_block (fresh := fresh) (ks := [3, 5]) (by decide) p.subnetworks s r hs hr
      have h3 := hin 3 (by decide)
      have h4 := hin 4 (by decide)
      have h5 := hin 5 (by decide)
      have h6 := hin 6 (by decide)
      have h7 := hin 7 (by decide)
      have h8 := hin 8 (by decide)
      have h9 := hin 9 (by decide)
      simp only [List.map_cons, List.map_nil] at h3 h4 h5 h6 h7 h8 h9
      rw [hkj]
      unfold arrows
      rw [List.filter_cons_of_pos (by rw [h3]; decide), List.filter_cons_of_neg (by rw [h4]; decide), List.filter_cons_of_pos (by rw [h5]; decide),
        List.filter_cons_of_neg (by rw [h6]; decide), List.filter_cons_of_neg (by rw [h7]; decide), List.filter_cons_of_neg (by rw [h8]; decide),
        List.filter_cons_of_neg (by rw [h9]; decide)]
      rfl
    rw [← he]
    exact hfil
  · intro j hj'
    obtain ⟨j0, h0, rfl⟩ := List.mem_map.1 hj'
    exact ⟨j0, (List.mem_filter.1 h0).1, rfl, rfl⟩

/-! ## The run -/

/-- An inference run of the example: any part of it that starts at the beginning, on any CPU backend, after any training. -/
structure InferRun (be : Prog.Backend F) (arith : Arith F) (o : Ops F) (p : Params F) (fresh : Nat) (a : Annotated F)
    (pops0 : List (Learn.Pop N (Blifat F) F)) (projs0 : List (Learn.Proj F)) (d : Data.Dataset) (winners maxSize : Nat) (u : Uids)
    (loggers : List Observer) (observe : Nat → σ → List (Message F) → σ) (draw : Nat → σ → Nat → Nat → Nat) (advance : Nat → σ → σ) (u0 : σ)
    (acts : List (Act σ)) (s : Prog.State σ (Learn.Pop N (Blifat F) F) (Learn.Proj F) F) (is : List (Iter F)) (rest : List (Item F)) : Prop where
  trained : TrainedNet arith o p fresh a pops0 projs0
  uids : NewUids p fresh u
  data : WellFormed d
  some : 1 ≤ d.infN
  length : is.length ≤ d.stepsInference
  run : ProgRun be o (inferLayout a u loggers) (inferCode p a d winners maxSize observe draw advance)
    (restoredPops a pops0) (restoredProjs a projs0) (inferInputs a u) u0 acts s (is.map Item.iter ++ rest)

variable {be : Prog.Backend F} {d : Data.Dataset} {winners maxSize : Nat} {u : Uids}
  {loggers : List Observer} {observe : Nat → σ → List (Message F) → σ} {draw : Nat → σ → Nat → Nat → Nat} {advance : Nat → σ → σ} {u0 : σ}
  {acts : List (Act σ)} {s : Prog.State σ (Learn.Pop N (Blifat F) F) (Learn.Proj F) F} {is : List (Iter F)} {rest : List (Item F)}

/-- C168, inference.  `infer_network` on the single-threaded backend, after any training, returns: whatever the images, the draws of winner-take-all
and the loggers, no step throws or is undefined, and it makes exactly as many steps as the dataset has for inference, and then one last pre-step
call. -/
theorem C168_inference (h : TrainedNet arith o p fresh a pops0 projs0) (hb : (arith.toI64 (-10)).isSome = true) (d : Data.Dataset)
    (winners maxSize : Nat) (u : Uids) (loggers : List Observer) (observe : Nat → σ → List (Message F) → σ) (draw : Nat → σ → Nat → Nat → Nat)
    (advance : Nat → σ → σ) (u0 : σ) :
    ∃ (s : Prog.State σ (Learn.Pop N (Blifat F) F) (Learn.Proj F) F) (is : List (Iter F)) (fed : List (List Nat)) (acts : List (Act σ)),
      Prog.start ((Prog.Backend.single : Prog.Backend F).step o) (inferLayout a u loggers)
        (inferCode p a d winners maxSize observe draw advance) (inferPred d) (d.stepsInference + 1)
        (Prog.boot (Learn.machine o) (inferLayout a u loggers) (restoredPops a pops0) (restoredProjs a projs0) (inferInputs a u) u0) =
          some (.ok (s, is.map Item.iter ++ [.halt d.stepsInference fed])) ∧
      is.length = d.stepsInference ∧
      ProgRun .single o (inferLayout a u loggers) (inferCode p a d winners maxSize observe draw advance)
        (restoredPops a pops0) (restoredProjs a projs0) (inferInputs a u) u0 acts s (is.map Item.iter ++ [.halt d.stepsInference fed]) := by
  have hv : ValidNet (fun w v => v = w) (restoredPops a pops0) (restoredProjs a projs0) := by
    obtain ⟨_, _, _, _, _, _, _, _, _, _, _, _, _, _, _, h, rfl, rfl⟩ := h
    exact C162_copy h.run (C166_valid arith hb p h.fit fresh a h.built) _ _ _
  obtain ⟨s, tr, hrun⟩ := C162_program o (inferLayout a u loggers) (inferCode p a d winners maxSize observe draw advance) hv
    (inferInputs a u) u0 ((List.range d.stepsInference).map (fun k => Act.iterate (fun u => (inferPred d u (0 + k)).2)) ++
      [.halt (fun u => (inferPred d u (0 + d.stepsInference)).2)]) (by
        intro x hx
        rcases List.mem_append.1 hx with hx | hx
        · obtain ⟨k, _, rfl⟩ := List.mem_map.1 hx
          trivial
        · simp only [List.mem_singleton] at hx
          subst hx
          trivial)
  have hstart := C119_start_returns .single o (inferPred d) d.stepsInference _ s tr hrun
    (fun k hk u => by
      show decide (0 + k ≠ d.stepsInference) = true
      exact decide_eq_true (by omega))
    (fun u => by
      show decide (0 + d.stepsInference ≠ d.stepsInference) = false
      exact decide_eq_false (by omega))
  obtain ⟨n, is, fed, e1, e2, e3, e4⟩ := C119_start .single o (inferPred d) _ _ _ _ hstart
  have hn := (e4 (fun t => decide (t ≠ d.stepsInference)) (fun _ _ => rfl)).1
  have hn' : 0 + n = d.stepsInference := by
    have : ¬ (0 + n ≠ d.stepsInference) := of_decide_eq_false hn
    omega
  have hz : (Prog.boot (Learn.machine (N := N) (B := Blifat F) o) (inferLayout a u loggers) (restoredPops a pops0)
    (restoredProjs a projs0) (inferInputs a u) u0).core.step + n = d.stepsInference := hn'
  rw [hz] at e1
  subst e1
  exact ⟨s, is, fed, _, hstart, by omega, ⟨hv.popUids, hv.projUids, hv.queues, hrun⟩⟩

omit [Field F] [LinearOrder F] [IsStrictOrderedRing F] in
theorem infer_layout_eq (a : Annotated F) (u : Uids) (loggers : List Observer) : inferLayout a u loggers =
    ⟨[u.raster], [(u.out, a.builder.outputs)], a.wtaData.mapIdx (fun n d => ⟨u.handler n, d.1, d.2⟩), loggers⟩ := by
  unfold inferLayout
  rw [addWta_spec]
  simp

theorem infer_parts (h : InferRun (N := N) be arith o p fresh a pops0 projs0 d winners maxSize u loggers observe draw advance u0 acts s is rest) :
    a.fromRaster = (List.range p.subnetworks).map (fun s => fresh + 10 * s + 3) ∧
    a.wtaData = (List.range p.subnetworks).map (fun s => ([fresh + 10 * s], [fresh + 10 * s + 5])) ∧
    a.builder.outputs = (List.range p.subnetworks).map (fun s => fresh + 10 * s + 1) ∧
    a.wtaBorders = (List.range p.classes).map (fun i => p.perColumn * (i + 1)) ∧ Fit p := by
  obtain ⟨hfit, ha, _, _⟩ := keeps h.trained
  obtain ⟨h1, h2, h3, _, _, h6, _⟩ := parts hfit ha
  exact ⟨h1, h2, h3, h6, hfit⟩

theorem infer_pop_uids (h : InferRun (N := N) be arith o p fresh a pops0 projs0 d winners maxSize u loggers observe draw advance u0 acts s is rest)
    {r : Nat} (hr : r ∈ (restoredPops a pops0).map Learn.Pop.uid) : fresh ≤ r ∧ r < fresh + 10 * p.subnetworks := by
  have hp := (C168_restored h.trained).1
  have he := congrArg (fun l => l.map Prod.fst) hp
  simp only [List.map_map, Function.comp_def, List.map_flatMap, List.map_cons, List.map_nil] at he
  change (restoredPops a pops0).map Learn.Pop.uid = _ at he
  rw [he] at hr
  obtain ⟨k, hk, hr⟩ := List.mem_flatMap.1 hr
  have hk := List.mem_range.1 hk
  simp only [List.mem_cons, List.not_mem_nil, or_false] at hr
  have hr : r = (fresh + 10 * k : Nat) ∨ r = (fresh + 10 * k + 1 : Nat) := hr
  omega

/-- The projections of the run. -/
private theorem proj_cases (h : TrainedNet arith o p fresh a pops0 projs0) {j : Learn.Proj F} (hj : j ∈ restoredProjs a projs0) :
    ∃ k < p.subnetworks, ∃ ar ∈ keptArrows p (fresh + 10 * k), Kept j ar := by
  have hd := (C168_restored h).2.2.1
  obtain ⟨n, hn, rfl⟩ := List.getElem_of_mem hj
  have hn' := hn
  rw [hd.length_eq] at hn'
  have := hd.get hn hn'
  obtain ⟨k, hk, hs⟩ := List.mem_flatMap.1 (List.getElem_mem hn')
  exact ⟨k, List.mem_range.1 hk, _, hs, by simpa using this⟩

theorem infer_proj_has (h : TrainedNet arith o p fresh a pops0 projs0) {k : Nat} (hk : k < p.subnetworks) {ar : Arrow F}
    (har : ar ∈ keptArrows p (fresh + 10 * k)) : ∃ j ∈ restoredProjs a projs0, Kept j ar := by
  have hd := (C168_restored h).2.2.1
  have hm : ar ∈ (List.range p.subnetworks).flatMap (fun s => keptArrows p (fresh + 10 * s)) :=
    List.mem_flatMap.2 ⟨k, List.mem_range.2 hk, har⟩
  obtain ⟨n, hn, rfl⟩ := List.getElem_of_mem hm
  have hn' := hn
  rw [← hd.length_eq] at hn'
  have := hd.get hn' hn
  exact ⟨_, List.getElem_mem hn', by simpa using this⟩

omit [LinearOrder F] [IsStrictOrderedRing F] in
private theorem kept_arrow {f : Nat} {ar : Arrow F} (har : ar ∈ keptArrows p f) : ar.pre = 0 := by
  simp only [keptArrows, List.mem_cons, List.not_mem_nil, or_false] at har
  rcases har with rfl | rfl <;> rfl

/-- Who a projection hears: the projections of the run have no source population. -/
theorem infer_hears_only (h : InferRun (N := N) be arith o p fresh a pops0 projs0 d winners maxSize u loggers observe draw advance u0 acts s is rest)
    {T : Nat} (hT : T < is.length) {r : UID} (hr : r ∈ (restoredProjs a projs0).map (fun j => j.ident.uid)) {x : SpikeMessage}
    (hx : x ∈ heardBy is[T].out r) :
    (r, x.header.senderUid) ∈ inferInputs a u ++ (inferLayout a u loggers).handlerInputs := by
  rw [heard_at h.run (split_at hT rest) r hr] at hx
  have hx := (List.mem_filter.1 hx).2
  unfold learnHearing at hx
  simp only [decide_eq_true_eq] at hx
  rcases hx with ⟨h0, j, hj, hju, hs⟩ | hx
  · exfalso
    obtain ⟨k, _, ar, har, hd⟩ := proj_cases h.trained hj
    rcases hs with hs | hs
    · exact h0 (hs.symm.trans (hd.pre.trans (kept_arrow har)))
    · cases ht : ar.trained with
      | true =>
        obtain ⟨ss, x, y, he⟩ := hd.learns ht
        rw [he] at hs
        simp [trainersOf] at hs
      | false =>
        obtain ⟨⟨dd, he⟩, _⟩ := hd.plain ht
        rw [he] at hs
        simp [trainersOf] at hs
  · exact hx

theorem infer_wta_length (h : InferRun (N := N) be arith o p fresh a pops0 projs0 d winners maxSize u loggers observe draw advance u0 acts s is rest) :
    a.wtaData.length = p.subnetworks := by
  rw [(infer_parts h).2.1, List.length_map, List.length_range]

theorem infer_handler_inputs (h : InferRun (N := N) be arith o p fresh a pops0 projs0 d winners maxSize u loggers observe draw advance u0 acts s is rest)
    {r v : UID} (hx : (r, v) ∈ (inferLayout a u loggers).handlerInputs) : ∃ n < p.subnetworks, r = fresh + 10 * n + 5 ∧ v = u.handler n := by
  rw [infer_layout_eq] at hx
  unfold Layout.handlerInputs at hx
  obtain ⟨hd, hh, hx⟩ := List.mem_flatMap.1 hx
  simp only at hh
  obtain ⟨n, hn, rfl⟩ := List.mem_mapIdx.1 hh
  have hw := (infer_parts h).2.1
  have hn' : n < p.subnetworks := by
    rw [infer_wta_length h] at hn
    exact hn
  have hg : a.wtaData[n] = ([fresh + 10 * n], [fresh + 10 * n + 5]) := by
    simp [hw]
  simp only [hg, List.map_cons, List.map_nil, List.mem_singleton, Prod.mk.injEq] at hx
  exact ⟨n, hn', hx.1, hx.2⟩

theorem infer_inputs_cases (h : InferRun (N := N) be arith o p fresh a pops0 projs0 d winners maxSize u loggers observe draw advance u0 acts s is rest)
    {r w : UID} (hx : (r, w) ∈ inferInputs a u) : ∃ k < p.subnetworks, r = fresh + 10 * k + 3 ∧ w = u.raster := by
  unfold inferInputs at hx
  rw [(infer_parts h).1] at hx
  obtain ⟨x, hx, he⟩ := List.mem_map.1 hx
  obtain ⟨k, hk, rfl⟩ := List.mem_map.1 hx
  have he := Prod.mk.inj he
  exact ⟨k, List.mem_range.1 hk, he.1.symm, he.2.symm⟩

omit [IsStrictOrderedRing F] in
theorem infer_time_at (h : InferRun (N := N) be arith o p fresh a pops0 projs0 d winners maxSize u loggers observe draw advance u0 acts s is rest)
    {T : Nat} (hT : T < is.length) : is[T].time = T := by
  rw [(out_at h.run (split_at hT rest)).1, iters_only, List.length_take]
  omega

/-- C168, images.  In every step of the inference the projection from the images of every subnetwork hears exactly the active pixels of this sub-step
of the current frame of the inference part of the dataset, and nothing else. -/
theorem C168_images (h : InferRun (N := N) be arith o p fresh a pops0 projs0 d winners maxSize u loggers observe draw advance u0 acts s is rest)
    (T : Nat) (hT : T < is.length) (k : Nat) (hk : k < p.subnetworks) :
    ∃ (f : Nat × List Bool) (l : List Nat), d.frames[d.trainN + T / d.stepsPerFrame]? = some f ∧ l.Pairwise (· < ·) ∧
      (∀ x, x ∈ l ↔ PixelActive d.imageSize f.2 (T % d.stepsPerFrame) x) ∧
      heardBy is[T].out (fresh + 10 * k + 3) = message u.raster T l := by
  obtain ⟨part, f, l, h1, h2, h3, h4, h5, h6⟩ := C70_inference d h.data h.some T
  have hs := h.data.steps
  have hlt : T / d.stepsPerFrame < d.infN := by
    have hlen := h.length
    have h1 : T < d.infN * d.stepsPerFrame := by have : is.length ≤ d.infN * d.stepsPerFrame := hlen; omega
    exact (Nat.div_lt_iff_lt_mul (by omega : 0 < d.stepsPerFrame)).2 h1
  have hf : d.frames[d.trainN + T / d.stepsPerFrame]? = some f := by
    rw [h2, Nat.mod_eq_of_lt hlt] at h3
    unfold Data.Dataset.inferenceData at h1
    split at h1
    · simp only [Outcome.ok.injEq] at h1
      rw [← h1, List.getElem?_take_of_lt hlt, List.getElem?_drop] at h3
      exact h3
    · cases h1
  refine ⟨f, l, hf, h5, h6, ?_⟩
  have hL := infer_layout_eq a u loggers
  obtain ⟨j, hj, hd⟩ := infer_proj_has h.trained hk (ar := ⟨fresh + 10 * k + 3, 0, fresh + 10 * k, true, 0, 1, .excitatory, fun a i => a < p.inputSize ∧ i < p.inputs⟩)
    (by unfold keptArrows; exact List.mem_cons_self)
  have hmem : (fresh + 10 * k + 3 : Nat) ∈ (restoredProjs a projs0).map (fun j => j.ident.uid) := List.mem_map.2 ⟨j, hj, hd.uid⟩
  have hall : (heardBy is[T].out (fresh + 10 * k + 3)).filter (fun x => decide (x.header.senderUid = u.raster)) =
      heardBy is[T].out (fresh + 10 * k + 3) := by
    rw [List.filter_eq_self]
    intro x hx
    rw [decide_eq_true_eq]
    rcases List.mem_append.1 (infer_hears_only h hT hmem hx) with hi | hi
    · exact (infer_inputs_cases h hi).choose_spec.2.2
    · obtain ⟨m, _, hm, _⟩ := infer_handler_inputs h hi
      have hm : (fresh + 10 * k + 3 : Nat) = fresh + 10 * m + 5 := hm
      omega
  have hc := (C120_channel (mid := []) h.run (by rw [hL]; exact List.nodup_cons.2 ⟨by simp, by simp⟩)
    (by rw [List.append_nil]; exact split_at hT rest) rfl (by
      rcases List.eq_nil_or_concat (is.take T) with h0 | ⟨a', i0, h0⟩
      · exact .inl (by rw [h0]; rfl)
      · exact .inr ⟨a'.map Item.iter, i0, by rw [h0]; simp⟩) 0 u.raster (by rw [hL]; rfl)
    (fun hc => not_both h.uids.raster (infer_pop_uids h hc))
    (fun hc => by
      rw [hL] at hc
      simp only [List.mem_map, List.mem_mapIdx] at hc
      obtain ⟨_, ⟨m, hm, rfl⟩, hc⟩ := hc
      rw [infer_wta_length h] at hm
      exact (h.uids.handlers m hm).2.1 hc)
    (fresh + 10 * k + 3) hmem (by
      unfold inferInputs
      rw [(infer_parts h).1]
      exact List.mem_map.2 ⟨_, List.mem_map.2 ⟨k, List.mem_range.2 hk, rfl⟩, rfl⟩)).1
  rw [hall] at hc
  rw [hc]
  have hcode := C122_user_code h.run
  rw [split_at hT rest] at hcode
  have hfed := fed_at (fun _ t => given (d.inferenceImages t)) (fun _ _ _ => rfl) _ _ _ _ _ _ hcode
  simp only [List.nil_append, List.flatMap_cons, List.flatMap_nil, List.append_nil, fedIn]
  rw [infer_time_at h hT] at hfed ⊢
  rw [hfed, hL]
  simp [h4, given]

/-- C168, winners.  In the step after a step the projection into the output population of a subnetwork hears exactly winners among the input neurons
of the subnetwork that fired: from every column `winners`, or all if there are fewer. -/
theorem C168_winners (h : InferRun (N := N) be arith o p fresh a pops0 projs0 d winners maxSize u loggers observe draw advance u0 acts s is rest)
    (hm : p.classes * winners ≤ maxSize) (T : Nat) (hT : T + 1 < is.length) (k : Nat) (hk : k < p.subnetworks) :
    ∃ ans, Winners a.wtaBorders winners (firedIn is[T].out (fresh + 10 * k)) ans ∧
      heardBy is[T + 1].out (fresh + 10 * k + 5) = message (u.handler k) (T + 1) ans := by
  have hw := infer_wta_length h
  have hrun := h.run
  unfold inferCode inferLayout at hrun
  rw [← hw] at hrun
  have hL := infer_layout_eq a u loggers
  unfold inferLayout at hL
  have hhands : ∀ v, v ∈ (addWtaHandlers u.handler 0 ⟨[u.raster], [(u.out, a.builder.outputs)], [], loggers⟩ a.wtaData).1.handlers.map (·.uid) →
      ∃ n < p.subnetworks, v = u.handler n := by
    intro v hv
    rw [hL] at hv
    simp only [List.mem_map, List.mem_mapIdx] at hv
    obtain ⟨_, ⟨m, hm', rfl⟩, rfl⟩ := hv
    exact ⟨m, by omega, rfl⟩
  have hout : ∀ v : Nat, fresh ≤ v ∧ v < fresh + 10 * p.subnetworks → v ∉ ([u.raster] : List UID) ∧
      v ∉ (addWtaHandlers u.handler 0 ⟨[u.raster], [(u.out, a.builder.outputs)], [], loggers⟩ a.wtaData).1.handlers.map (·.uid) := by
    intro v hv
    refine ⟨fun hc => ?_, fun hc => ?_⟩
    · simp only [List.mem_cons, List.not_mem_nil, or_false] at hc
      exact not_both h.uids.raster (hc ▸ hv)
    · obtain ⟨n, hn, hc⟩ := hhands v hc
      exact not_both (h.uids.handlers n hn).1 (hc ▸ hv)
  have hsplit : is.map Item.iter ++ rest = (is.take T).map Item.iter ++ Item.iter is[T] :: ([] ++ Item.iter is[T + 1] ::
      ((is.drop (T + 2)).map Item.iter ++ rest)) := by
    rw [split_at (by omega : T < is.length) rest, List.nil_append, List.drop_eq_getElem_cons hT]
    rfl
  have hself := hout (fresh + 10 * k) ⟨by omega, by omega⟩
  obtain ⟨_, ans, hwin, hrec⟩ := C159_winners_partial hrun
    (by rw [(infer_parts h).2.2.2.1, List.length_map, List.length_range]; exact hm)
    (by
      rw [hL]
      have he : (a.wtaData.mapIdx (fun n d => (⟨u.handler n, d.1, d.2⟩ : Handler))).map (·.uid) = (List.range p.subnetworks).map u.handler := by
        apply List.ext_getElem
        · simp [hw]
        · intro n h1 h2
          simp
      show ((a.wtaData.mapIdx (fun n d => (⟨u.handler n, d.1, d.2⟩ : Handler))).map (·.uid)).Nodup
      rw [he]
      exact List.Nodup.map_on (fun x hx y hy hxy => h.uids.each x (List.mem_range.1 hx) y (List.mem_range.1 hy) hxy) List.nodup_range)
    k (fresh + 10 * k) [fresh + 10 * k + 5]
    (by rw [(infer_parts h).2.1, List.getElem?_map, List.getElem?_range hk]; rfl)
    hself.1 hself.2 (u.handler k)
    (by rw [addWta_spec]; simp [hw, hk])
    (fun hc => by
      simp only [List.mem_cons, List.not_mem_nil, or_false] at hc
      exact (h.uids.handlers k hk).2.1 hc)
    (fun hc => not_both (h.uids.handlers k hk).1 (infer_pop_uids h hc)) hsplit rfl
  refine ⟨ans, hwin, ?_⟩
  obtain ⟨j, hj, hd⟩ := infer_proj_has h.trained hk (ar := ⟨fresh + 10 * k + 5, 0, fresh + 10 * k + 1, false, 10, 1, .excitatory, fun i c => InColumn p c i⟩)
    (by unfold keptArrows; exact .tail _ List.mem_cons_self)
  have hmem : (fresh + 10 * k + 5 : Nat) ∈ (restoredProjs a projs0).map (fun j => j.ident.uid) := List.mem_map.2 ⟨j, hj, hd.uid⟩
  have := hrec (fresh + 10 * k + 5) (by simp) hmem
  rw [infer_time_at h hT] at this
  rw [← this, eq_comm, List.filter_eq_self]
  intro x hx
  rw [decide_eq_true_eq]
  rcases List.mem_append.1 (infer_hears_only h hT hmem hx) with hi | hi
  · exfalso
    obtain ⟨k', _, hc, _⟩ := infer_inputs_cases h hi
    have hc : (fresh + 10 * k + 5 : Nat) = fresh + 10 * k' + 3 := hc
    omega
  · obtain ⟨m, _, hm1, hm2⟩ := infer_handler_inputs h hi
    have hm1 : (fresh + 10 * k + 5 : Nat) = fresh + 10 * m + 5 := hm1
    have : m = k := by omega
    rw [hm2, this]

/-! ## What reaches the neurons -/

private theorem proj_find (h : TrainedNet arith o p fresh a pops0 projs0) {j : Learn.Proj F} (hj : j ∈ restoredProjs a projs0) :
    ExactFind (wired j.syns) := by
  obtain ⟨hfit, ha, _, hg⟩ := keeps h
  obtain ⟨j', hj', rfl⟩ := List.mem_map.1 hj
  have hj' := (List.mem_filter.1 hj').1
  obtain ⟨n, hn, rfl⟩ := List.getElem_of_mem hj'
  have hn' := hn
  rw [← hg.length_eq] at hn'
  have hgr : Learn.Grown (loadProjs a.builder.network)[n] projs0[n] := by simpa using hg.get hn' hn
  refine Learn.skeleton_find hgr.skeleton ?_
  have hmem := List.getElem_mem hn'
  generalize (loadProjs a.builder.network)[n] = j0 at hmem
  unfold loadProjs at hmem
  rw [(parts hfit ha).2.2.2.1] at hmem
  obtain ⟨e, he, rfl⟩ := List.mem_map.1 hmem
  obtain ⟨k, _, he⟩ := List.mem_flatMap.1 he
  exact find_all _ _ e he

private theorem proj_sound (h : TrainedNet arith o p fresh a pops0 projs0) {j : Learn.Proj F} (hj : j ∈ restoredProjs a projs0) (t : Nat)
    (ht : t + 4 < two64) : Sound t (wired j.syns) := by
  obtain ⟨hfit, _⟩ := keeps h
  obtain ⟨k, hk, ar, har, hd⟩ := proj_cases h hj
  intro y hy
  have hcon : ar.connects y.source y.target := by
    by_contra hn
    exact hd.only _ _ hn (List.mem_map.2 ⟨y, hy, rfl⟩)
  obtain ⟨hdel, _⟩ := hd.alike y hy
  have hsm := hfit.small
  have hpx := hfit.pixels
  have h32 : Delta.two32 = 2 ^ 32 := by decide
  rw [h32]
  have ends : y.source < 2 ^ 32 ∧ y.target < 2 ^ 32 ∧ ar.delay = 1 := by
    simp only [keptArrows, List.mem_cons, List.not_mem_nil, or_false] at har
    rcases har with rfl | rfl
    · have hcon : _ ∧ _ := hcon
      exact ⟨by omega, by omega, rfl⟩
    · obtain ⟨h1, h2⟩ : InColumn p y.target y.source := hcon
      have : y.target ≤ y.source := by rw [← h2]; exact Nat.div_le_self _ _
      exact ⟨by omega, by omega, rfl⟩
  rw [hdel, ends.2.2]
  refine ⟨ends.1, ends.2.1, Nat.le_refl _, ?_⟩
  generalize two64 = b at ht ⊢
  omega

/-- A run of a backend with the network for inference does not change the synapses. -/
private theorem weights_run (h : TrainedNet arith o p fresh a pops0 projs0) {pops : List (Learn.Pop N (Blifat F) F)} {inputs : List (UID × UID)} {chans : Nat}
    {envs : List (Sys.Env F)} {sB : Learn.State (Learn.Pop N (Blifat F) F) (Learn.Proj F) F} {os : List (Sys.StepOut F)}
    (hl : LearnRun o pops (restoredProjs a projs0) inputs chans envs sB os) (n : Nat) (j : Learn.Proj F) (hj : (restoredProjs a projs0)[n]? = some j) :
    ∃ j', sB.projs[n]? = some j' ∧ (wired j'.syns).synapses = (wired j.syns).synapses := by
  obtain ⟨k, hk, ar, har, hd⟩ := proj_cases h (List.mem_of_getElem? hj)
  cases ht : ar.trained with
  | false =>
    obtain ⟨⟨dd, he⟩, _⟩ := hd.plain ht
    obtain ⟨j', h1, _, h3⟩ := C58_run_delta hl n j hj dd he
    exact ⟨j', h1, by rw [h3, he]⟩
  | true =>
    obtain ⟨ss, x, y, he⟩ := hd.learns ht
    obtain ⟨j', ss', h1, h2, h3, h4⟩ := C58_run hl n j hj hd.locked _ _ _ _ he
    refine ⟨j', h1, ?_⟩
    rw [h2, he]
    simp only [wired]
    apply List.ext_getElem
    · simp [h3]
    · intro m m1 m2
      rw [List.length_map] at m1 m2
      have := h4 m ss[m] ss'[m] (List.getElem?_eq_getElem m2) (List.getElem?_eq_getElem m1)
      rw [List.getElem_map, List.getElem_map, this]

/-- C168, no learning.  At the end of an inference run, as after every step of it, the synapses of all projections are what the training left: the same
ends, weights, delays and types. -/
theorem C168_weights (h : InferRun (N := N) .single arith o p fresh a pops0 projs0 d winners maxSize u loggers observe draw advance u0 acts s is rest)
    (n : Nat) (j : Learn.Proj F) (hj : (restoredProjs a projs0)[n]? = some j) :
    ∃ j', s.core.projs[n]? = some j' ∧ (wired j'.syns).synapses = (wired j.syns).synapses := by
  obtain ⟨envs, sB, hl, _, hp, _, _⟩ := C119_learn_run h.run
  rw [← hp]
  exact weights_run h.trained hl n j hj

omit [Field F] [LinearOrder F] [IsStrictOrderedRing F] in
theorem iters_run {is : List (Iter F)} {rest : List (Item F)} (hrest : iters rest = []) : iters (is.map Item.iter ++ rest) = is := by
  have := iters_only is
  unfold iters at this hrest ⊢
  rw [List.filterMap_append, this, hrest, List.append_nil]

omit [Field F] [LinearOrder F] [IsStrictOrderedRing F] in
theorem count_message (v : UID) (t c : Nat) (l : List Nat) : spikesOf c (message v t l) = l.count c := by
  unfold message
  split
  · rename_i hl
    rw [hl]; rfl
  · simp [spikesOf]

/-- Pixel `x` is active in step `t` of the inference. -/
def ShownPixel (d : Data.Dataset) (t x : Nat) : Prop :=
  ∃ f, d.frames[d.trainN + t / d.stepsPerFrame]? = some f ∧ PixelActive d.imageSize f.2 (t % d.stepsPerFrame) x

private theorem pop_mem (h : TrainedNet arith o p fresh a pops0 projs0) {k : Nat} (hk : k < p.subnetworks) (r n : Nat) (hr : (r = 0 ∧ n = p.inputs) ∨ (r = 1 ∧ n = p.classes)) :
    ∃ q ∈ restoredPops a pops0, q.uid = fresh + 10 * k + r ∧ popSize q = n := by
  have hp := (C168_restored h).1
  have hm : ((fresh + 10 * k + r, n) : UID × Nat) ∈ (restoredPops a pops0).map (fun q => (q.uid, popSize q)) := by
    rw [hp]
    refine List.mem_flatMap.2 ⟨k, List.mem_range.2 hk, ?_⟩
    rcases hr with ⟨rfl, rfl⟩ | ⟨rfl, rfl⟩ <;> simp
  obtain ⟨q, hq, he⟩ := List.mem_map.1 hm
  have he := Prod.mk.inj he
  exact ⟨q, hq, he.1, he.2⟩

/-- C168, what reaches the input neurons in a step: through every synapse from an image pixel exactly one impact if the pixel was active in the step
before, with the weight the training left, and none otherwise; and nothing else reaches them - no labels, rewards or gates. -/
theorem C168_currents (h : InferRun (N := N) .single arith o p fresh a pops0 projs0 d winners maxSize u loggers observe draw advance u0 acts s is rest)
    (hrest : iters rest = []) (hfit : d.stepsInference + 4 < two64) (hf : 0 < fresh) (T : Nat) (hT : T < is.length) (k : Nat) (hk : k < p.subnetworks) :
    ∃ j ∈ restoredProjs a projs0, j.ident.uid = fresh + 10 * k + 3 ∧
      (∀ (c : Nat) (y : Delta.Syn F), (wired j.syns).synapses[c]? = some y →
        (1 ≤ T ∧ ShownPixel d (T - 1) y.source → impactsThrough (fresh + 10 * k + 3) c (givenTo is[T].out (fresh + 10 * k)) =
          [⟨c, y.weight, .excitatory, y.source, y.target⟩]) ∧
        (¬ (1 ≤ T ∧ ShownPixel d (T - 1) y.source) → impactsThrough (fresh + 10 * k + 3) c (givenTo is[T].out (fresh + 10 * k)) = [])) ∧
      ∀ m ∈ givenTo is[T].out (fresh + 10 * k), m.header.senderUid = fresh + 10 * k + 3 := by
  obtain ⟨envs, sB, hl, _, _, _, hno⟩ := C119_learn_run h.run
  rw [iters_run hrest] at hl
  have hlen : envs.length = is.length := by
    have h1 := hl.length
    rw [List.length_map] at h1
    exact h1.symm
  have hbound : envs.length + 4 < two64 := by
    have := h.length
    generalize two64 = b at hfit ⊢
    omega
  have hT' : T < (is.map (fun i => i.out)).length := by simpa using hT
  have hgT : (is.map (fun i => i.out))[T] = is[T].out := by simp
  obtain ⟨j, hj, hd⟩ := infer_proj_has h.trained hk (ar := ⟨fresh + 10 * k + 3, 0, fresh + 10 * k, true, 0, 1, .excitatory, fun a i => a < p.inputSize ∧ i < p.inputs⟩)
    (by unfold keptArrows; exact List.mem_cons_self)
  obtain ⟨q, hq⟩ := List.getElem?_of_mem hj
  obtain ⟨pp, hpp, hpu, _⟩ := pop_mem h.trained hk 0 _ (.inl ⟨rfl, rfl⟩)
  have hpu : pp.uid = (fresh + 10 * k : Nat) := hpu
  have hforge : ∀ v : UID, ∀ env ∈ envs, ∀ (e : Nat) (im : SynapticImpactMessage F), Bus.Op.send e (.impact im) ∈ env → im.header.senderUid ≠ v :=
    fun v env henv e im hm => absurd hm (hno env henv e im)
  obtain ⟨hthrough, _⟩ := C113_end_to_end hl pp hpp (by rw [hpu]; show (fresh + 10 * k : Nat) ≠ 0; omega) q j hq (by rw [hd.post, hpu])
    (proj_find h.trained hj) (proj_sound h.trained hj _ hbound) (hforge _) T hT'
  rw [hgT, hpu, hd.uid] at hthrough
  refine ⟨j, hj, hd.uid, fun c y hy => ?_, fun m hm => ?_⟩
  · obtain ⟨hlt, hge⟩ := hthrough c y hy
    obtain ⟨hdel, hty⟩ := hd.alike y (List.mem_of_getElem? hy)
    have hdel : y.delay = 1 := hdel
    have hty : y.outType = .excitatory := hty
    rw [hdel] at hlt hge
    by_cases h1 : 1 ≤ T
    · obtain ⟨s1, os1, j1, w, hr1, hj1, hw1, heq⟩ := hge h1
      obtain ⟨j1', hj1', hsyn⟩ := weights_run h.trained hr1 q j hq
      rw [hj1] at hj1'
      simp only [Option.some.injEq] at hj1'
      subst hj1'
      rw [hsyn, hy] at hw1
      simp only [Option.some.injEq] at hw1
      subst hw1
      have hT1 : T - 1 < is.length := by omega
      have hget : (is.map (fun i => i.out)).getD (T - 1) ⟨[], [], [], []⟩ = is[T - 1].out := by
        rw [List.getD_eq_getElem?_getD, List.getElem?_map, List.getElem?_eq_getElem hT1]; rfl
      obtain ⟨f, l, hfr, hsorted, hact, hheard⟩ := C168_images h (T - 1) hT1 k hk
      have hcond : ∀ ms, conducted j ms = ms := by
        obtain ⟨ss, x, y, he⟩ := hd.learns rfl
        intro ms
        unfold conducted
        rw [he]
      rw [hget, hcond, hheard, count_message, hty] at heq
      have hshown : ShownPixel d (T - 1) y.source ↔ y.source ∈ l := by
        rw [hact]
        constructor
        · rintro ⟨f', hf', ha⟩
          rw [hfr] at hf'
          simp only [Option.some.injEq] at hf'
          exact hf' ▸ ha
        · exact fun ha => ⟨f, hfr, ha⟩
      have hnd : l.Nodup := hsorted.imp (fun hab => Nat.ne_of_lt hab)
      refine ⟨fun hs => ?_, fun hs => ?_⟩
      · rw [heq, List.count_eq_one_of_mem hnd (hshown.1 hs.2)]
        rfl
      · rw [heq, List.count_eq_zero_of_not_mem (fun hc => hs ⟨h1, hshown.2 hc⟩)]
        rfl
    · exact ⟨fun hs => absurd hs.1 h1, fun _ => hlt (by omega)⟩
  · obtain ⟨_, j', hj', hpost, hsend⟩ := C113_senders hl pp hpp T hT' m (by rw [hgT, hpu]; exact hm)
    obtain ⟨k', hk', ar, har, hd'⟩ := proj_cases h.trained hj'
    rw [← hsend, hd'.uid]
    rw [hd'.post, hpu] at hpost
    simp only [keptArrows, List.mem_cons, List.not_mem_nil, or_false] at har
    rcases har with rfl | rfl
    · have hpost : (fresh + 10 * k' : Nat) = fresh + 10 * k := hpost
      show (fresh + 10 * k' + 3 : Nat) = fresh + 10 * k + 3
      omega
    · have hpost : (fresh + 10 * k' + 1 : Nat) = fresh + 10 * k := hpost
      omega

/-- The projection into the output population. -/
private theorem out_proj (h : TrainedNet arith o p fresh a pops0 projs0) {k : Nat} (hk : k < p.subnetworks) :
    (⟨⟨fresh + 10 * k + 5, 0, fresh + 10 * k + 1, true⟩, true, deltaSyns (bodies p).toOutput, []⟩ : Learn.Proj F) ∈ restoredProjs a projs0 := by
  obtain ⟨hfit, ha, _, hg⟩ := keeps h
  have hmem : (⟨⟨fresh + 10 * k + 5, 0, fresh + 10 * k + 1, true⟩, true, deltaSyns (bodies p).toOutput, []⟩ : Learn.Proj F) ∈
      loadProjs a.builder.network := by
    unfold loadProjs
    rw [(parts hfit ha).2.2.2.1]
    exact List.mem_map.2 ⟨⟨fresh + 10 * k + 5, 0, fresh + 10 * k + 1, 0, (true, deltaSyns (bodies p).toOutput)⟩,
      List.mem_flatMap.2 ⟨k, List.mem_range.2 hk, by simp only [subProjs]; exact .tail _ (.tail _ List.mem_cons_self)⟩, rfl⟩
  obtain ⟨n, hn, he⟩ := List.getElem_of_mem hmem
  have hn' := hn
  rw [hg.length_eq] at hn'
  have hgr : Learn.Grown (loadProjs a.builder.network)[n] projs0[n] := by simpa using hg.get hn hn'
  rw [he] at hgr
  unfold restoredProjs
  refine List.mem_map.2 ⟨projs0[n], List.mem_filter.2 ⟨List.getElem_mem hn', ?_⟩, ?_⟩
  · rw [hgr.ident, (parts hfit ha).2.2.2.2.2.2.2]
    have := in_block (fresh := fresh) (ks := [3, 5]) (by decide) p.subnetworks k 5 hk (by decide)
    simp only [List.map_cons, List.map_nil] at this
    show (List.flatMap _ _).contains (fresh + 10 * k + 5) = true
    rw [this]
    decide
  · rw [hgr.ident, hgr.plain _ rfl]
    rfl

private theorem fired_lt (h : InferRun (N := N) .single arith o p fresh a pops0 projs0 d winners maxSize u loggers observe draw advance u0 acts s is rest)
    {i : Iter F} (hi : i ∈ is) {k : Nat} (hk : k < p.subnetworks) {n : Nat} (hn : n ∈ firedIn i.out (fresh + 10 * k)) : n < p.inputs := by
  obtain ⟨x, hx, hn⟩ := List.mem_flatMap.1 hn
  obtain ⟨hx, hs⟩ := List.mem_filter.1 hx
  have hs := of_decide_eq_true hs
  have hin : i ∈ iters (is.map Item.iter ++ rest) := by
    have h1 := iters_only is
    unfold iters at h1 ⊢
    rw [List.filterMap_append, h1]
    exact List.mem_append_left _ hi
  obtain ⟨q, hq, hqu, _, hlt⟩ := (prog_keeps h.run).2.2 i hin x hx
  obtain ⟨q', hq', hqu', hsz⟩ := pop_mem h.trained hk 0 _ (.inl ⟨rfl, rfl⟩)
  have : q = q' := List.inj_on_of_nodup_map h.run.popUids hq hq' (by rw [hqu, hs, hqu']; rfl)
  subst this
  have := hlt n hn
  rw [← Learn.size_eq, hsz] at this
  exact this

/-- Before the first iteration no handler has answered. -/
private theorem heard_zero (h : InferRun (N := N) be arith o p fresh a pops0 projs0 d winners maxSize u loggers observe draw advance u0 acts s is rest)
    (h0 : 0 < is.length) {k : Nat} (hk : k < p.subnetworks) : heardBy is[0].out (fresh + 10 * k + 5) = [] := by
  rw [List.eq_nil_iff_forall_not_mem]
  intro x hx
  obtain ⟨j, hj, hd⟩ := infer_proj_has h.trained hk (ar := ⟨fresh + 10 * k + 5, 0, fresh + 10 * k + 1, false, 10, 1, .excitatory, fun i c => InColumn p c i⟩)
    (by unfold keptArrows; exact .tail _ List.mem_cons_self)
  have hmem : (fresh + 10 * k + 5 : Nat) ∈ (restoredProjs a projs0).map (fun j => j.ident.uid) := List.mem_map.2 ⟨j, hj, hd.uid⟩
  have hsend : ∃ m < p.subnetworks, x.header.senderUid = u.handler m := by
    rcases List.mem_append.1 (infer_hears_only h h0 hmem hx) with hi | hi
    · obtain ⟨k', _, hc, _⟩ := infer_inputs_cases h hi
      have hc : (fresh + 10 * k + 5 : Nat) = fresh + 10 * k' + 3 := hc
      omega
    · obtain ⟨m, hm, _, h2⟩ := infer_handler_inputs h hi
      exact ⟨m, hm, h2⟩
  obtain ⟨m, hm, hsend⟩ := hsend
  have hsp := split_at h0 rest
  rw [heard_at h.run hsp _ hmem] at hx
  have hx := (List.mem_filter.1 hx).1
  have hor : x ∈ external (inferLayout a u loggers) ((is.take 0).map Item.iter) is[0] ∨ x ∈ is[0].out.spikes := by
    cases be with
    | single => exact List.mem_append.1 hx
    | multi _ _ => exact (List.mem_append.1 hx).symm
  rcases hor with hx | hx
  · rw [infer_layout_eq] at hx
    simp only [List.take_zero, List.map_nil, external, waiting, List.foldl_nil, Waiting.none, Waiting.into, fedBy] at hx
    have hz : (List.map (fun _ => ([] : List SpikeMessage)) (a.wtaData.mapIdx (fun n d => (⟨u.handler n, d.1, d.2⟩ : Handler)))).flatten = [] := by
      generalize a.wtaData.mapIdx (fun n d => (⟨u.handler n, d.1, d.2⟩ : Handler)) = l
      induction l with
      | nil => rfl
      | cons _ _ ih => simp
    rw [hz, List.append_nil] at hx
    cases hfed : is[0].fed with
    | nil => rw [hfed] at hx; simp at hx
    | cons g gs =>
      rw [hfed] at hx
      simp only [List.map_cons, List.map_nil, List.zipWith_cons_cons, List.zipWith_nil_left, List.nil_append, List.flatten_cons,
        List.flatten_nil, List.append_nil] at hx
      have : x.header.senderUid = u.raster := by
        unfold message at hx
        split at hx
        · simp at hx
        · simp only [List.mem_singleton] at hx
          rw [hx]
      exact (h.uids.handlers m hm).2.1 (hsend ▸ this)
  · have hpop := (spikes_at h.run hsp x hx).2
    rw [hsend] at hpop
    exact not_both (h.uids.handlers m hm).1 (infer_pop_uids h hpop)

private theorem output_all (h : InferRun (N := N) .single arith o p fresh a pops0 projs0 d winners maxSize u loggers observe draw advance u0 acts s is rest)
    (hrest : iters rest = []) (hfit : d.stepsInference + 4 < two64) (T : Nat) (hT : T < is.length) (k : Nat) (hk : k < p.subnetworks)
    (ans : List Nat) (hans : ∀ n ∈ ans, n < p.inputs)
    (hheard : 1 ≤ T → ∃ v t, heardBy (is.getD (T - 1) is[T]).out (fresh + 10 * k + 5) = message v t ans) (hno : T = 0 → ans = []) :
    (((givenTo is[T].out (fresh + 10 * k + 1)).flatMap (fun m => m.impacts)).map (fun im => im.connectionIndex)).Perm ans ∧
    ∀ im ∈ (givenTo is[T].out (fresh + 10 * k + 1)).flatMap (fun m => m.impacts),
      im = ⟨im.connectionIndex, 10, .excitatory, im.connectionIndex, im.connectionIndex / p.perColumn⟩ := by
  obtain ⟨envs, sB, hl, _, _, _, hnoi⟩ := C119_learn_run h.run
  rw [iters_run hrest] at hl
  have hlen : envs.length = is.length := by
    have h1 := hl.length
    rw [List.length_map] at h1
    exact h1.symm
  have hbound : envs.length + 4 < two64 := by
    have := h.length
    generalize two64 = b at hfit ⊢
    omega
  have hT' : T < (is.map (fun i => i.out)).length := by simpa using hT
  have hgT : (is.map (fun i => i.out))[T] = is[T].out := by simp
  have hj := out_proj h.trained hk
  obtain ⟨q, hq⟩ := List.getElem?_of_mem hj
  obtain ⟨pp, hpp, hpu, _⟩ := pop_mem h.trained hk 1 _ (.inr ⟨rfl, rfl⟩)
  have hforge : ∀ v : UID, ∀ env ∈ envs, ∀ (e : Nat) (im : SynapticImpactMessage F), Bus.Op.send e (.impact im) ∈ env → im.header.senderUid ≠ v :=
    fun v env henv e im hm => absurd hm (hnoi env henv e im)
  obtain ⟨hthrough, honly⟩ := C113_end_to_end hl pp hpp (by rw [hpu]; show (fresh + 10 * k + 1 : Nat) ≠ 0; omega) q _ hq hpu.symm
    (proj_find h.trained hj) (proj_sound h.trained hj _ hbound) (hforge _) T hT'
  rw [hgT, hpu] at hthrough honly
  have hsend : ∀ m ∈ givenTo is[T].out (fresh + 10 * k + 1), m.header.senderUid = fresh + 10 * k + 5 := by
    intro m hm
    obtain ⟨_, j', hj', hpost, hsend⟩ := C113_senders hl pp hpp T hT' m (by rw [hgT, hpu]; exact hm)
    obtain ⟨k', hk', ar, har, hd'⟩ := proj_cases h.trained hj'
    rw [← hsend, hd'.uid]
    rw [hd'.post, hpu] at hpost
    simp only [keptArrows, List.mem_cons, List.not_mem_nil, or_false] at har
    rcases har with rfl | rfl
    · have hpost : (fresh + 10 * k' : Nat) = fresh + 10 * k + 1 := hpost
      omega
    · have hpost : (fresh + 10 * k' + 1 : Nat) = fresh + 10 * k + 1 := hpost
      show (fresh + 10 * k' + 5 : Nat) = fresh + 10 * k + 5
      omega
  have hsyn : ∀ c : Nat, (wired (deltaSyns (bodies p).toOutput)).synapses[c]? =
      if c < p.inputs then some ⟨c, c / p.perColumn, 10, 1, .excitatory⟩ else none := by
    intro c
    simp only [wired, deltaSyns, bodies, up, List.getElem?_map, List.map_map]
    by_cases hc : c < p.inputs
    · rw [List.getElem?_range hc, if_pos hc]; rfl
    · rw [if_neg hc, List.getElem?_eq_none (by simpa using hc)]; rfl
  have hfil : ∀ c, ((givenTo is[T].out (fresh + 10 * k + 1)).flatMap (fun m => m.impacts)).filter (fun im => im.connectionIndex == c) =
      impactsThrough (fresh + 10 * k + 5) c (givenTo is[T].out (fresh + 10 * k + 1)) := by
    intro c
    unfold impactsThrough
    have hall : (givenTo is[T].out (fresh + 10 * k + 1)).filter (fun m => m.header.senderUid == (fresh + 10 * k + 5 : Nat)) =
        givenTo is[T].out (fresh + 10 * k + 1) := by
      rw [List.filter_eq_self]
      intro m hm
      have : m.header.senderUid = fresh + 10 * k + 5 := hsend m hm
      simp [this]
    rw [hall]
  have hrep : ∀ c, c < p.inputs → ((givenTo is[T].out (fresh + 10 * k + 1)).flatMap (fun m => m.impacts)).filter (fun im => im.connectionIndex == c) =
      List.replicate (ans.count c) ⟨c, 10, .excitatory, c, c / p.perColumn⟩ := by
    intro c hc
    have hy := hsyn c
    rw [if_pos hc] at hy
    obtain ⟨hlt, hge⟩ := hthrough c _ hy
    rw [hfil]
    by_cases h1 : 1 ≤ T
    · obtain ⟨s1, os1, j1, w, hr1, hj1, hw1, heq⟩ := hge h1
      obtain ⟨j1', hj1', hs⟩ := weights_run h.trained hr1 q _ hq
      rw [hj1] at hj1'
      simp only [Option.some.injEq] at hj1'
      subst hj1'
      rw [hs] at hw1
      have hww : (⟨c, c / p.perColumn, 10, 1, .excitatory⟩ : Delta.Syn F) = w := by
        have := hy.symm.trans hw1
        simpa using this
      have hT1 : T - 1 < is.length := by omega
      have hget : (is.map (fun i => i.out)).getD (T - 1) ⟨[], [], [], []⟩ = is[T - 1].out := by
        rw [List.getD_eq_getElem?_getD, List.getElem?_map, List.getElem?_eq_getElem hT1]; rfl
      obtain ⟨v, t, hh⟩ := hheard h1
      rw [List.getD_eq_getElem?_getD, List.getElem?_eq_getElem hT1, Option.getD_some] at hh
      refine heq.trans ?_
      show List.replicate (spikesOf c (heardBy ((is.map (fun i => i.out)).getD (T - 1) ⟨[], [], [], []⟩) (fresh + 10 * k + 5))) _ = _
      rw [hget, ← hww, hh, count_message]
    · rw [hno (by omega)]
      exact hlt (by show T < 1; omega)
  have hind : ∀ im ∈ (givenTo is[T].out (fresh + 10 * k + 1)).flatMap (fun m => m.impacts), im.connectionIndex < p.inputs := by
    intro im him
    obtain ⟨m, hm, him⟩ := List.mem_flatMap.1 him
    obtain ⟨y, hy, _⟩ := honly m hm (hsend m hm) im him
    change (wired (deltaSyns (bodies p).toOutput)).synapses[im.connectionIndex]? = some y at hy
    rw [hsyn] at hy
    by_contra hn
    rw [if_neg hn] at hy
    cases hy
  refine ⟨?_, fun im him => ?_⟩
  · rw [List.perm_iff_count]
    intro c
    have hcnt : List.count c (((givenTo is[T].out (fresh + 10 * k + 1)).flatMap (fun m => m.impacts)).map (fun im => im.connectionIndex)) =
        (((givenTo is[T].out (fresh + 10 * k + 1)).flatMap (fun m => m.impacts)).filter (fun im => im.connectionIndex == c)).length := by
      rw [List.count_eq_countP, List.countP_map, List.countP_eq_length_filter]
      rfl
    rw [hcnt]
    by_cases hc : c < p.inputs
    · rw [hrep c hc, List.length_replicate]
    · rw [List.count_eq_zero_of_not_mem (fun hm => hc (hans c hm)), List.length_eq_zero_iff, List.filter_eq_nil_iff]
      intro im him hcc
      rw [beq_iff_eq] at hcc
      exact hc (hcc ▸ hind im him)
  · have hin : im ∈ ((givenTo is[T].out (fresh + 10 * k + 1)).flatMap (fun m => m.impacts)).filter (fun x => x.connectionIndex == im.connectionIndex) :=
      List.mem_filter.2 ⟨him, by simp⟩
    rw [hrep _ (hind im him)] at hin
    exact List.eq_of_mem_replicate hin

/-- C168, what reaches the output neurons.  Two steps after input neurons of the column of class `c` fired, output neuron `c` of the subnetwork gets
one impact of 10 for each, but at most `winners`, from neurons of that column that fired; and never anything else. -/
theorem C168_output (h : InferRun (N := N) .single arith o p fresh a pops0 projs0 d winners maxSize u loggers observe draw advance u0 acts s is rest)
    (hrest : iters rest = []) (hfit : d.stepsInference + 4 < two64) (hm : p.classes * winners ≤ maxSize) (T : Nat) (hT : T < is.length) (k : Nat)
    (hk : k < p.subnetworks) :
    (T < 2 → (givenTo is[T].out (fresh + 10 * k + 1)).flatMap (fun m => m.impacts) = []) ∧
    ∀ (S : Nat) (hS : S + 2 = T) (c : Nat),
      ((((givenTo is[T].out (fresh + 10 * k + 1)).flatMap (fun m => m.impacts)).filter (fun im => decide (im.postsynapticNeuronIndex = c))).length =
        min winners ((firedIn (is[S]'(by omega)).out (fresh + 10 * k)).filter (fun n => decide (n / p.perColumn = c))).length) ∧
      ∀ im ∈ ((givenTo is[T].out (fresh + 10 * k + 1)).flatMap (fun m => m.impacts)).filter (fun im => decide (im.postsynapticNeuronIndex = c)),
        im.impactValue = 10 ∧ im.synapseType = .excitatory ∧ im.presynapticNeuronIndex / p.perColumn = c ∧
        im.presynapticNeuronIndex ∈ firedIn (is[S]'(by omega)).out (fresh + 10 * k) := by
  refine ⟨fun h2 => ?_, fun S hS c => ?_⟩
  · have := (output_all h hrest hfit T hT k hk [] (by simp) (fun h1 => by
      have hT1 : T - 1 = 0 := by omega
      refine ⟨0, 0, ?_⟩
      rw [hT1, List.getD_eq_getElem?_getD, List.getElem?_eq_getElem (by omega : 0 < is.length), Option.getD_some]
      exact heard_zero h (by omega) hk) (fun _ => rfl)).1
    exact List.map_eq_nil_iff.1 (List.perm_nil.1 this)
  · subst hS
    obtain ⟨ans, ⟨hwin, hcount⟩, hheard⟩ := C168_winners h hm S (by omega) k hk
    have hin : ∀ n ∈ ans, n ∈ firedIn (is[S]'(by omega)).out (fresh + 10 * k) := by
      intro n hn
      have := hcount n
      have h1 : 0 < ans.count n := List.count_pos_iff.2 hn
      exact List.count_pos_iff.1 (by omega)
    have hlt : ∀ n ∈ firedIn (is[S]'(by omega)).out (fresh + 10 * k), n < p.inputs := fun n hn => fired_lt h (List.getElem_mem _) hk hn
    obtain ⟨hperm, hform⟩ := output_all h hrest hfit (S + 2) hT k hk ans (fun n hn => hlt n (hin n hn)) (fun _ => by
      refine ⟨u.handler k, S + 1, ?_⟩
      rw [show S + 2 - 1 = S + 1 by omega, List.getD_eq_getElem?_getD, List.getElem?_eq_getElem (by omega : S + 1 < is.length), Option.getD_some]
      exact hheard) (fun hc => by omega)
    have hgroup : ∀ i < p.inputs, groupOf a.wtaBorders i = i / p.perColumn := by
      intro i hi
      rw [(infer_parts h).2.2.2.1]
      exact border_group p i hi
    refine ⟨?_, fun im him => ?_⟩
    · have h1 := hwin c
      have e1 : ans.filter (fun x => decide (groupOf a.wtaBorders x = c)) = ans.filter (fun x => decide (x / p.perColumn = c)) :=
        List.filter_congr (fun x hx => by rw [hgroup x (hlt x (hin x hx))])
      have e2 : (firedIn (is[S]'(by omega)).out (fresh + 10 * k)).filter (fun x => decide (groupOf a.wtaBorders x = c)) =
          (firedIn (is[S]'(by omega)).out (fresh + 10 * k)).filter (fun x => decide (x / p.perColumn = c)) :=
        List.filter_congr (fun x hx => by rw [hgroup x (hlt x hx)])
      rw [e1, e2] at h1
      rw [← h1, ← (hperm.filter _).length_eq, List.filter_map, List.length_map]
      congr 1
      apply List.filter_congr
      intro im him
      have := congrArg SynapticImpact.postsynapticNeuronIndex (hform im him)
      simp only at this
      rw [this]
      rfl
    · obtain ⟨him, hc⟩ := List.mem_filter.1 him
      have hc := of_decide_eq_true hc
      have he := hform im him
      have h1 := congrArg SynapticImpact.postsynapticNeuronIndex he
      have h2 := congrArg SynapticImpact.impactValue he
      have h3 := congrArg SynapticImpact.synapseType he
      have h4 := congrArg SynapticImpact.presynapticNeuronIndex he
      simp only at h1 h2 h3 h4
      refine ⟨h2, h3, by rw [h4, ← h1, hc], ?_⟩
      rw [h4]
      exact hin _ (hperm.mem_iff.1 (List.mem_map.2 ⟨im, him, rfl⟩))

/-! ## What is returned -/

omit [Field F] [LinearOrder F] [IsStrictOrderedRing F] in
private theorem perm_votes {l m : List SpikeMessage} (h : l.Perm m) (classes spf f c : Nat) : frameVotes classes spf l f c = frameVotes classes spf m f c := by
  unfold frameVotes
  exact ((h.filter _).flatMap_right _).countP_eq _

omit [Field F] [LinearOrder F] [IsStrictOrderedRing F] in
private theorem by_sender (ms : List SpikeMessage) : ∀ (vs : List UID), vs.Nodup →
    ((ms.filter (fun x => decide (x.header.senderUid ∈ vs))).flatMap (fun x => x.neuronIndexes)).Perm
      (vs.flatMap (fun v => (ms.filter (fun x => decide (x.header.senderUid = v))).flatMap (fun x => x.neuronIndexes)))
  | [], _ => by simp
  | v :: vs, hn => by
    obtain ⟨h1, h2⟩ := List.nodup_cons.1 hn
    have ih := by_sender ms vs h2
    rw [List.flatMap_cons]
    refine List.Perm.trans ?_ (List.Perm.append_left _ ih)
    rw [← List.flatMap_append]
    apply List.Perm.flatMap_right
    clear ih hn
    induction ms with
    | nil => simp
    | cons m ms ih =>
      by_cases hv : m.header.senderUid = v
      · have hnot : m.header.senderUid ∉ vs := hv ▸ h1
        rw [List.filter_cons_of_pos (by simp [hv]), List.filter_cons_of_pos (by simp [hv]), List.filter_cons_of_neg (by simp [hnot])]
        exact ih.cons _
      · by_cases hin : m.header.senderUid ∈ vs
        · rw [List.filter_cons_of_pos (by simp [hin]), List.filter_cons_of_neg (by simp [hv]), List.filter_cons_of_pos (by simp [hin])]
          exact (ih.cons _).trans List.perm_middle.symm
        · rw [List.filter_cons_of_neg (by simp [hin, hv]), List.filter_cons_of_neg (by simp [hv]), List.filter_cons_of_neg (by simp [hin])]
          exact ih

omit [Field F] [LinearOrder F] [IsStrictOrderedRing F] in
private theorem by_frame (vs : List UID) (hn : vs.Nodup) (spf f : Nat) : ∀ (is : List (Iter F)), (∀ i ∈ is, ∀ x ∈ i.out.spikes, x.header.sendTime = i.time) →
    (((is.flatMap (fun i => i.out.spikes.filter (fun x => decide (x.header.senderUid ∈ vs)))).filter
        (fun m => decide (m.header.sendTime / spf = f))).flatMap (fun m => m.neuronIndexes)).Perm
      ((is.filter (fun i => decide (i.time / spf = f))).flatMap (fun i => vs.flatMap (fun v => firedIn i.out v)))
  | [], _ => by simp
  | i :: is, h => by
    have ih := by_frame vs hn spf f is (fun j hj => h j (by simp [hj]))
    have h0 := h i (by simp)
    rw [List.flatMap_cons, List.filter_append, List.flatMap_append]
    by_cases hf : i.time / spf = f
    · rw [List.filter_cons_of_pos (by simp [hf]), List.flatMap_cons]
      refine List.Perm.append ?_ ih
      rw [List.filter_eq_self.2]
      · exact by_sender _ vs hn
      · intro x hx
        rw [h0 x (List.mem_filter.1 hx).1]
        simp [hf]
    · rw [List.filter_cons_of_neg (by simp [hf]), List.filter_eq_nil_iff.2, List.flatMap_nil, List.nil_append]
      · exact ih
      · intro x hx
        rw [h0 x (List.mem_filter.1 hx).1]
        simp [hf]

/-- C168, what `infer_network` returns: the spike messages of the output populations in all steps of the run, in the order of the steps. -/
theorem C168_returned (h : InferRun (N := N) be arith o p fresh a pops0 projs0 d winners maxSize u loggers observe draw advance u0 acts s is rest)
    (hrest : iters rest = []) (hread : ∀ it ∈ rest, ∀ x y got, it ≠ .read 0 x y got) (spikes : List SpikeMessage) (hret : Returned a u loggers s spikes) :
    spikes.Perm (is.flatMap (fun i => i.out.spikes.filter (fun x => decide (x.header.senderUid ∈ a.builder.outputs)))) ∧
      spikes.Pairwise (fun x y => x.header.sendTime ≤ y.header.sendTime) := by
  refine ⟨?_, hret.2⟩
  have hL := infer_layout_eq a u loggers
  have hd : (inferLayout a u loggers).outputs[0]? = some (u.out, a.builder.outputs) := by rw [hL]; rfl
  have hu := (C116_update h.run 0 _ hd).1
  have hc := C116_contents h.run 0 _ hd
  have hin : ∀ v ∈ a.builder.outputs, fresh ≤ v ∧ v < fresh + 10 * p.subnetworks := by
    intro v hv
    rw [(infer_parts h).2.2.1] at hv
    obtain ⟨k, hk, rfl⟩ := List.mem_map.1 hv
    have hk := List.mem_range.1 hk
    show fresh ≤ (fresh + 10 * k + 1 : Nat) ∧ (fresh + 10 * k + 1 : Nat) < fresh + 10 * p.subnetworks
    omega
  have hp := C116_populations h.run 0 _ hd
    (fun v hv hc => by
      rw [hL] at hc
      simp only [List.mem_singleton] at hc
      exact not_both h.uids.raster (hc ▸ hin v hv))
    (fun v hv hc => by
      rw [hL] at hc
      simp only [List.mem_map, List.mem_mapIdx] at hc
      obtain ⟨_, ⟨m, hm, rfl⟩, hc⟩ := hc
      rw [infer_wta_length h] at hm
      have hc : u.handler m = v := hc
      exact not_both (h.uids.handlers m hm).1 (hc ▸ hin v hv))
    (fun it hit x y got hc => by
      rcases List.mem_append.1 hit with hit | hit
      · obtain ⟨i, _, rfl⟩ := List.mem_map.1 hit
        cases hc
      · exact hread it hit x y got hc)
  have hiters : iters (is.map Item.iter ++ rest) = is := by
    have := iters_only is
    unfold iters at this hrest ⊢
    rw [List.filterMap_append, this, hrest, List.append_nil]
  rw [hc] at hp
  simp only [Option.some.injEq, Io.OutputChannel.mk.injEq, hiters] at hp
  have := hret.1
  rw [hu, hp] at this
  exact this

/-- C168, predictions.  What the evaluation makes of the returned spikes: one prediction for every frame of the inference part.  The prediction for
frame `f` is the class with the most spikes (the first such class; no class if there was no spike) - a spike of output neuron `c`, of any subnetwork,
in one of the steps in which the frame was shown counts for class `c` - and nothing else counts. -/
theorem C168_predictions (h : InferRun (N := N) be arith o p fresh a pops0 projs0 d winners maxSize u loggers observe draw advance u0 acts s is rest)
    (hrest : iters rest = []) (hread : ∀ it ∈ rest, ∀ x y got, it ≠ .read 0 x y got) (spikes : List SpikeMessage) (hret : Returned a u loggers s spikes)
    (hcl : 1 ≤ d.classes) :
    ∃ ps, Eval.predictions d spikes = .ok ps ∧ ps.length = d.infN ∧ ∀ f q, ps[f]? = some q →
      IsWinner d.classes (fun c => ((is.filter (fun i => decide (i.time / d.stepsPerFrame = f))).flatMap (fun i =>
        (List.range p.subnetworks).flatMap (fun k => firedIn i.out (fresh + 10 * k + 1)))).countP (fun n => n % d.classes == c)) q := by
  obtain ⟨hperm, hsort⟩ := C168_returned h hrest hread spikes hret
  obtain ⟨ps, h1, h2, h3⟩ := C97_predictions d spikes hcl h.data.steps hsort
  refine ⟨ps, h1, h2, fun f q hq => ?_⟩
  have := h3 f q hq
  have he : frameVotes d.classes d.stepsPerFrame spikes f = (fun c => ((is.filter (fun i => decide (i.time / d.stepsPerFrame = f))).flatMap (fun i =>
        (List.range p.subnetworks).flatMap (fun k => firedIn i.out (fresh + 10 * k + 1)))).countP (fun n => n % d.classes == c)) := by
    funext c
    rw [perm_votes hperm]
    unfold frameVotes
    apply List.Perm.countP_eq
    have hb := by_frame a.builder.outputs (by
        rw [(infer_parts h).2.2.1]
        refine List.Nodup.map_on (fun x _ y _ hxy => ?_) List.nodup_range
        have hxy : (fresh + 10 * x + 1 : Nat) = fresh + 10 * y + 1 := hxy
        omega) d.stepsPerFrame f is (fun i hi x hx => by
          obtain ⟨T, hT, rfl⟩ := List.getElem_of_mem hi
          exact (spikes_at h.run (split_at hT rest) x hx).1)
    refine hb.trans ?_
    rw [(infer_parts h).2.2.1]
    simp only [List.flatMap_map]
    exact List.Perm.refl _
  rw [← he]
  exact this

end

namespace MnistEx

/-- One frame for training, two for inference. -/
def d2 : Data.Dataset := ⟨[(1, [true, false, true, true, true, true, false, false, true, true, true, false, false, false, false]),
  (0, List.replicate 15 true), (1, List.replicate 15 false)], 1, 2, 5, 2, 3⟩

theorem data2 : WellFormed d2 := ⟨by decide, by decide, by decide⟩

/-- Trained networks exist, and inference runs on them: ten steps and the call that ends them. -/
theorem inference : ∃ (a : Annotated ℚ) (pops0 : List (Learn.Pop (Lif ℚ) (Blifat ℚ) ℚ)) (projs0 : List (Learn.Proj ℚ)) (acts : List (Act Nat))
    (s : Prog.State Nat (Learn.Pop (Lif ℚ) (Blifat ℚ) ℚ) (Learn.Proj ℚ) ℚ) (is : List (Iter ℚ)) (rest : List (Item ℚ)),
    is.length = 10 ∧ iters rest = [] ∧ (∀ it ∈ rest, ∀ x y got, it ≠ .read 0 x y got) ∧
    InferRun .single arith StdpEx.o p 5 a pops0 projs0 d2 1 1000 u [] (fun _ u _ => u) (fun _ _ _ _ => 0) (fun _ u => u + 1) 0 acts s is rest := by
  obtain ⟨a, acts, s, is, rest, _, _, h⟩ := run
  have ht : TrainedNet arith StdpEx.o p 5 a s.core.pops s.core.projs := ⟨_, _, _, _, _, _, _, _, _, _, _, _, _, _, _, h, rfl, rfl⟩
  obtain ⟨s', is', fed, acts', _, hl, hr⟩ := C168_inference (σ := Nat) ht rfl d2 1 1000 u [] (fun _ u _ => u) (fun _ _ _ _ => 0) (fun _ u => u + 1) 0
  refine ⟨a, _, _, acts', s', is', _, hl, rfl, ?_, ht, uids, data2, by decide, by rw [hl], hr⟩
  intro it hit x y got hc
  simp only [List.mem_singleton] at hit
  rw [hit] at hc
  cases hc

example : d2.stepsInference + 4 < two64 := by decide
example : p.classes * 1 ≤ 1000 := by decide

/-- A training of five steps, then inference with the network it left. -/
def inferred : Option (Annotated ℚ × Prog.State Nat (Learn.Pop (Lif ℚ) (Blifat ℚ) ℚ) (Learn.Proj ℚ) ℚ × List (Item ℚ)) :=
  match construct p 5 with
  | .ok a => match Prog.start ((Prog.Backend.single : Prog.Backend ℚ).step StdpEx.o) (trainLayout a u [])
          (trainCode p a d2 3 1 1000 (fun _ (u : Nat) _ => u) (fun _ _ _ _ => 0) (fun _ u => u + 1)) (trainPred d2) 11
          (Prog.boot (Learn.machine (N := Lif ℚ) StdpEx.o) (trainLayout a u []) (loadPops arith a.builder.network) (loadProjs a.builder.network)
            (trainInputs a u) 0) with
    | some (.ok t) => match Prog.start ((Prog.Backend.single : Prog.Backend ℚ).step StdpEx.o) (inferLayout a u [])
          (inferCode p a d2 1 1000 (fun _ (u : Nat) _ => u) (fun _ _ _ _ => 0) (fun _ u => u + 1)) (inferPred d2) 11
          (Prog.boot (Learn.machine (N := Lif ℚ) StdpEx.o) (inferLayout a u []) (restoredPops a t.1.core.pops)
            (restoredProjs a t.1.core.projs) (inferInputs a u) 0) with
      | some (.ok r) => some (a, r)
      | _ => none
    | _ => none
  | _ => none
/-- The steps of that run in which output neurons of the first subnetwork fire, and the predictions with their votes. -/
def verdict : List (Nat × List Nat) × List (Nat × Nat) := match inferred with
  | some (a, r) => (((iters r.2).map (fun i => (i.time, firedIn i.out 6))).filter (fun x => !x.2.isEmpty),
      match Eval.predictions d2 (updateOut (inferLayout a u []) 0 r.1).2 with
      | .ok ps => ps.map (fun q => (q.cls, q.votes))
      | _ => [])
  | _ => ([], [])
example : verdict = ([(3, [0, 1])], [(0, 2), (0, 0)]) := by decide +kernel

end MnistEx

end Knp.Props
