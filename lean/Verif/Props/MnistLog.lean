import Verif.Props.MnistInference
import Verif.Props.ProgramLog
import Verif.Model.MnistLog

/-!
# C169: the logs of the MNIST example

The spikes logs of an inference, the weights log of a training.
-/

namespace Knp.Props
open Knp Knp.Spec Knp.Neurons Knp.Stdp Knp.Mnist Knp.Prog

section
variable {σ N F M : Type} [Field F] [LinearOrder F] [IsStrictOrderedRing F]

variable {be : Prog.Backend F} {arith : Arith F} {o : Ops F} {p : Params F} {fresh : Nat} {a : Annotated F} {pops0 : List (Learn.Pop N (Blifat F) F)}
  {projs0 : List (Learn.Proj F)} {d : Data.Dataset} {winners maxSize : Nat} {u : Uids}
  {loggers : List Observer} {observe : Nat → σ → List (Message F) → σ} {draw : Nat → σ → Nat → Nat → Nat} {advance : Nat → σ → σ} {u0 : σ}
  {acts : List (Act σ)} {s : Prog.State σ (Learn.Pop N (Blifat F) F) (Learn.Proj F) F} {is : List (Iter F)} {rest : List (Item F)}

omit [Field F] [LinearOrder F] [IsStrictOrderedRing F] in
/-- What an observer of spikes gets from what is on the bus. -/
private theorem spikes_of (is : List (SynapticImpactMessage F)) (ms : List SpikeMessage) (S : List UID) :
    Sys.spikesIn ((is.map Message.impact ++ ms.map Message.spike).filter (fun x => (x.kind == MsgKind.spike) && decide (x.sender ∈ S))) =
      ms.filter (fun m => decide (m.header.senderUid ∈ S)) := by
  rw [List.filter_append, List.filter_map, List.filter_map]
  have e1 : (is.filter ((fun x : Message F => (x.kind == MsgKind.spike) && decide (x.sender ∈ S)) ∘ Message.impact)) = [] := by
    rw [List.filter_eq_nil_iff]
    intro m _
    simp [Message.kind]
  rw [e1, List.map_nil, List.nil_append, Sys.spikesIn_map]
  apply List.filter_congr
  intro m _
  simp only [Function.comp]
  rfl

omit [Field F] [LinearOrder F] [IsStrictOrderedRing F] in
private theorem flat_same {α β : Type} {f g : α → List β} : ∀ (l : List α), (∀ x ∈ l, f x = g x) → l.flatMap f = l.flatMap g
  | [], _ => rfl
  | x :: l, h => by
    rw [List.flatMap_cons, List.flatMap_cons, h x (by simp), flat_same l (fun y hy => h y (by simp [hy]))]

omit [Field F] [LinearOrder F] [IsStrictOrderedRing F] in
private theorem by_flat {us : List UID} {ls : List (List SpikeMessage)} (h : By us ls) (hn : us.Nodup) :
    ls.flatten = us.flatMap (fun v => ls.flatten.filter (fun x => decide (x.header.senderUid = v))) := by
  have e : ls = us.map (fun v => ls.flatten.filter (fun x => decide (x.header.senderUid = v))) := by
    apply List.ext_getElem
    · rw [List.length_map, h.1]
    · intro k h1 h2
      rw [List.length_map] at h2
      rw [List.getElem_map]
      exact (by_one h hn k _ _ (List.getElem?_eq_getElem h2) (List.getElem?_eq_getElem h1)).symm
  conv_lhs => rw [e]
  rw [List.flatMap_def]

/-- What is on its way from the handlers in a step. -/
private theorem from_handlers (h : InferRun (N := N) be arith o p fresh a pops0 projs0 d winners maxSize u loggers observe draw advance u0 acts s is rest)
    {T : Nat} (hT : T < is.length) :
    By ((List.range p.subnetworks).map u.handler) (waiting (inferLayout a u loggers) ((is.take T).map Item.iter)).handlers := by
  have hL := infer_layout_eq a u loggers
  have hlen := infer_wta_length h
  have hu : (inferLayout a u loggers).handlers.map (·.uid) = (List.range p.subnetworks).map u.handler := by
    rw [hL]
    apply List.ext_getElem
    · simp [hlen]
    · intro n h1 h2
      simp
  rw [← hu]
  rcases List.eq_nil_or_concat (is.take T) with h0 | ⟨is', i0, h0⟩
  · rw [h0]
    refine ⟨by simp [waiting, Waiting.none], ?_⟩
    intro k v l _ hl x hx
    simp only [List.map_nil, waiting, List.foldl_nil, Waiting.none, List.getElem?_map] at hl
    cases hd : (inferLayout a u loggers).handlers[k]? with
    | none => rw [hd] at hl; cases hl
    | some y =>
      rw [hd] at hl
      simp only [Option.map_some, Option.some.injEq] at hl
      subst hl
      cases hx
  · have hlt : is'.length < is.length ∧ is'.length < T := by
      have := congrArg List.length h0
      rw [List.length_take, List.length_concat] at this
      omega
    have hi0 : is[is'.length] = i0 := by
      have h1 : (is.take T)[is'.length]? = some i0 := by rw [h0]; simp
      rw [List.getElem?_take_of_lt hlt.2] at h1
      exact (List.getElem?_eq_some_iff.1 h1).2
    have hex := (prog_explained h.run _ _ _ (split_at hlt.1 rest)).2.2.1
    rw [hi0] at hex
    have hl : i0.handled.length = (inferLayout a u loggers).handlers.length := by simpa using congrArg List.length hex
    rw [h0, List.concat_eq_append, List.map_append]
    exact (into_handlers (mid := []) rfl hl).1

/-- What a logger of the populations and the handlers gets in a step. -/
private theorem logged (h : InferRun (N := N) be arith o p fresh a pops0 projs0 d winners maxSize u loggers observe draw advance u0 acts s is rest)
    (popName : UID → M) (wta : M) (n : Nat) (v : UID)
    (ho : loggers[n]? = some (logObserver v (inferNames popName wta a u (restoredPops a pops0)))) {T : Nat} (hT : T < is.length) :
    Sys.spikesIn (is[T].observed.getD n []) = is[T].out.spikes ++ (List.range p.subnetworks).flatMap (fun k => heardBy is[T].out (fresh + 10 * k + 5)) := by
  have hL := infer_layout_eq a u loggers
  have hlen := infer_wta_length h
  have hsp := split_at hT rest
  have ho' : (inferLayout a u loggers).observers[n]? = some (logObserver v (inferNames popName wta a u (restoredPops a pops0))) := by
    rw [hL]; exact ho
  have hobs := (C118_observer h.run hsp).2 n _ ho'
  rw [List.getD_eq_getElem?_getD, hobs, Option.getD_some]
  unfold logObserver
  dsimp only
  rw [spikes_of]
  have hkeys : (inferNames popName wta a u (restoredPops a pops0)).map (fun x => x.1) =
      (restoredPops a pops0).map Learn.Pop.uid ++ (List.range p.subnetworks).map u.handler := by
    unfold inferNames logNames
    rw [addWta_spec]
    simp [Function.comp_def, hlen]
  rw [hkeys, List.filter_append]
  have hpop := spikes_at h.run hsp
  have hby := from_handlers h hT
  have hnd : ((List.range p.subnetworks).map u.handler).Nodup :=
    List.Nodup.map_on (fun x hx y hy hxy => h.uids.each x (List.mem_range.1 hx) y (List.mem_range.1 hy) hxy) List.nodup_range
  have hchan := (into_channels (L := inferLayout a u loggers) (i := is[T]) (a := (is.take T).map Item.iter) (mid := []) (by
      rcases List.eq_nil_or_concat (is.take T) with h0 | ⟨a', i0, h0⟩
      · exact .inl (by rw [h0]; rfl)
      · exact .inr ⟨a'.map Item.iter, i0, by rw [h0]; simp⟩) rfl (by
        rw [List.append_nil, ← hsp]
        exact prog_explained h.run)).1
  rw [List.append_nil] at hchan
  congr 1
  · rw [List.filter_eq_self]
    intro x hx
    simp [(hpop x hx).2]
  · unfold external Waiting.into
    generalize hW : waiting (inferLayout a u loggers) ((is.take T).map Item.iter) = W at *
    have hin : (inferLayout a u loggers).inputs = [u.raster] := by rw [hL]
    rw [hin] at hchan
    have hraster : ∀ x ∈ (List.zipWith (· ++ ·) W.channels (fedBy (inferLayout a u loggers) is[T].time is[T].fed)).flatten,
        x.header.senderUid = u.raster := by
      intro x hx
      obtain ⟨l, hl, hx⟩ := List.mem_flatten.1 hx
      obtain ⟨k, hk⟩ := List.getElem?_of_mem hl
      have hk1 : k < 1 := by
        have := (List.getElem?_eq_some_iff.1 hk).1
        have h2 : _ = [u.raster].length := hchan.1
        rw [h2] at this
        exact this
      have : k = 0 := by omega
      subst this
      exact hchan.2 0 u.raster l rfl hk x hx
    have hhand : ∀ x ∈ W.handlers.flatten, ∃ k < p.subnetworks, x.header.senderUid = u.handler k := by
      intro x hx
      rw [by_flat hby hnd] at hx
      obtain ⟨w, hw, hx⟩ := List.mem_flatMap.1 hx
      obtain ⟨k, hk, rfl⟩ := List.mem_map.1 hw
      exact ⟨k, List.mem_range.1 hk, by simpa using (List.mem_filter.1 hx).2⟩
    rw [List.filter_append]
    have e1 : ((List.zipWith (· ++ ·) W.channels (fedBy (inferLayout a u loggers) is[T].time is[T].fed)).flatten).filter
        (fun m => decide (m.header.senderUid ∈ (restoredPops a pops0).map Learn.Pop.uid ++ (List.range p.subnetworks).map u.handler)) = [] := by
      rw [List.filter_eq_nil_iff]
      intro x hx hc
      rw [decide_eq_true_eq, hraster x hx, List.mem_append] at hc
      rcases hc with hc | hc
      · exact not_both h.uids.raster (infer_pop_uids h hc)
      · obtain ⟨k, hk, hc⟩ := List.mem_map.1 hc
        exact (h.uids.handlers k (List.mem_range.1 hk)).2.1 hc
    have e2 : W.handlers.flatten.filter
        (fun m => decide (m.header.senderUid ∈ (restoredPops a pops0).map Learn.Pop.uid ++ (List.range p.subnetworks).map u.handler)) = W.handlers.flatten := by
      rw [List.filter_eq_self]
      intro x hx
      obtain ⟨k, hk, he⟩ := hhand x hx
      rw [decide_eq_true_eq, he]
      exact List.mem_append_right _ (List.mem_map.2 ⟨k, List.mem_range.2 hk, rfl⟩)
    rw [e1, e2, List.nil_append, by_flat hby hnd, List.flatMap_map]
    refine flat_same _ (fun k hk => ?_)
    have hk := List.mem_range.1 hk
    obtain ⟨j, hj, hd⟩ := infer_proj_has h.trained hk (ar := ⟨fresh + 10 * k + 5, 0, fresh + 10 * k + 1, false, 10, 1, .excitatory, fun i c => InColumn p c i⟩)
      (by unfold keptArrows; exact .tail _ List.mem_cons_self)
    have hmem : (fresh + 10 * k + 5 : Nat) ∈ (restoredProjs a projs0).map (fun j => j.ident.uid) := List.mem_map.2 ⟨j, hj, hd.uid⟩
    have hself : ((fresh + 10 * k + 5, u.handler k) : UID × UID) ∈ (inferLayout a u loggers).handlerInputs := by
      rw [hL]
      unfold Layout.handlerInputs
      refine List.mem_flatMap.2 ⟨⟨u.handler k, [fresh + 10 * k], [fresh + 10 * k + 5]⟩, ?_, by simp⟩
      refine List.mem_mapIdx.2 ⟨k, by omega, ?_⟩
      simp [(infer_parts h).2.1]
    obtain ⟨X, hheard, hX⟩ : ∃ X, heardBy is[T].out (fresh + 10 * k + 5) = X.filter (fun m =>
        (learnHearing (restoredProjs a projs0) (inferInputs a u ++ (inferLayout a u loggers).handlerInputs)).spike (fresh + 10 * k + 5) m.header.senderUid) ∧
        (X = external (inferLayout a u loggers) ((is.take T).map Item.iter) is[T] ++ is[T].out.spikes ∨
          X = is[T].out.spikes ++ external (inferLayout a u loggers) ((is.take T).map Item.iter) is[T]) := by
      have := heard_at h.run hsp _ hmem
      cases be with
      | single => exact ⟨_, this, .inl rfl⟩
      | multi config sched => exact ⟨_, this, .inr rfl⟩
    have hiff : ∀ x ∈ X,
        (learnHearing (restoredProjs a projs0) (inferInputs a u ++ (inferLayout a u loggers).handlerInputs)).spike (fresh + 10 * k + 5)
          x.header.senderUid = decide (x.header.senderUid = u.handler k) := by
      intro x hx
      rw [Bool.eq_iff_iff, decide_eq_true_eq]
      constructor
      · intro hc
        have hxm : x ∈ heardBy is[T].out (fresh + 10 * k + 5) := by
          rw [hheard]
          exact List.mem_filter.2 ⟨hx, hc⟩
        rcases List.mem_append.1 (infer_hears_only h hT hmem hxm) with hi | hi
        · exfalso
          obtain ⟨k', _, hc, _⟩ := infer_inputs_cases h hi
          have hc : (fresh + 10 * k + 5 : Nat) = fresh + 10 * k' + 3 := hc
          omega
        · obtain ⟨m, _, hm1, hm2⟩ := infer_handler_inputs h hi
          have hm1 : (fresh + 10 * k + 5 : Nat) = fresh + 10 * m + 5 := hm1
          have : m = k := by omega
          rw [hm2, this]
      · intro hc
        rw [hc]
        unfold learnHearing
        simp only [decide_eq_true_eq]
        exact .inr (List.mem_append_right _ hself)
    rw [hheard, List.filter_congr hiff]
    have e3 : is[T].out.spikes.filter (fun x => decide (x.header.senderUid = u.handler k)) = [] := by
      rw [List.filter_eq_nil_iff]
      intro x hx hc
      rw [decide_eq_true_eq] at hc
      exact not_both (h.uids.handlers k hk).1 (infer_pop_uids h (hc ▸ (hpop x hx).2))
    have e4 : (external (inferLayout a u loggers) ((is.take T).map Item.iter) is[T]).filter (fun x => decide (x.header.senderUid = u.handler k)) =
        W.handlers.flatten.filter (fun x => decide (x.header.senderUid = u.handler k)) := by
      unfold external Waiting.into
      rw [hW, List.filter_append]
      have : ((List.zipWith (· ++ ·) W.channels (fedBy (inferLayout a u loggers) is[T].time is[T].fed)).flatten).filter
          (fun x => decide (x.header.senderUid = u.handler k)) = [] := by
        rw [List.filter_eq_nil_iff]
        intro x hx hc
        rw [decide_eq_true_eq, hraster x hx] at hc
        exact (h.uids.handlers k hk).2.1 hc.symm
      rw [this, List.nil_append]
    rcases hX with rfl | rfl
    · rw [List.filter_append, e3, e4, List.append_nil]
    · rw [List.filter_append, e3, e4, List.nil_append]

omit [Field F] [LinearOrder F] [IsStrictOrderedRing F] in
private theorem no_calls {n : Nat} : ∀ (rest : List (Item F)), iters rest = [] → callsOf n rest = []
  | [], _ => rfl
  | .iter i :: rest, h => by simp [iters] at h
  | .halt t fed :: rest, h => by rw [callsOf]; exact no_calls rest h
  | .read x y z got :: rest, h => by rw [callsOf]; exact no_calls rest h

omit [Field F] [LinearOrder F] [IsStrictOrderedRing F] in
private theorem calls_run {n : Nat} {rest : List (Item F)} (hr : iters rest = []) : ∀ (is : List (Iter F)),
    callsOf n (is.map Item.iter ++ rest) = is.map (fun i => ⟨i.time + 1, Sys.spikesIn (i.observed.getD n [])⟩)
  | [] => no_calls rest hr
  | i :: is => by
    rw [List.map_cons, List.cons_append, callsOf, calls_run hr is, List.map_cons]

omit [Field F] [LinearOrder F] [IsStrictOrderedRing F] in
private theorem lookup_own {f : UID → M} {v : UID} : ∀ (l : List UID) (r : List (UID × M)), v ∈ l → (l.map (fun w => (w, f w)) ++ r).lookup v = some (f v)
  | [], _, h => by cases h
  | w :: l, r, h => by
    rw [List.map_cons, List.cons_append, List.lookup_cons]
    by_cases hw : v = w
    · subst hw; simp
    · have : (v == w) = false := by simpa using hw
      rw [this]
      exact lookup_own l r ((List.mem_cons.1 h).resolve_left hw)

omit [Field F] [LinearOrder F] [IsStrictOrderedRing F] in
private theorem lookup_skip {f : UID → M} {v : UID} : ∀ (l : List UID) (r : List (UID × M)), v ∉ l → (l.map (fun w => (w, f w)) ++ r).lookup v = r.lookup v
  | [], _, _ => rfl
  | w :: l, r, h => by
    rw [List.map_cons, List.cons_append, List.lookup_cons]
    have : (v == w) = false := by
      have : v ≠ w := fun hc => h (by simp [hc])
      simpa using this
    rw [this]
    exact lookup_skip l r (fun hc => h (by simp [hc]))

private theorem winner_stamp (h : InferRun (N := N) be arith o p fresh a pops0 projs0 d winners maxSize u loggers observe draw advance u0 acts s is rest)
    {T : Nat} (hT : T < is.length) {k : Nat} (hk : k < p.subnetworks) {x : SpikeMessage} (hx : x ∈ heardBy is[T].out (fresh + 10 * k + 5)) :
    x.header.sendTime = is[T].time ∧ x.header.senderUid = u.handler k := by
  obtain ⟨j, hj, hd⟩ := infer_proj_has h.trained hk (ar := ⟨fresh + 10 * k + 5, 0, fresh + 10 * k + 1, false, 10, 1, .excitatory, fun i c => InColumn p c i⟩)
    (by unfold keptArrows; exact .tail _ List.mem_cons_self)
  have hmem : (fresh + 10 * k + 5 : Nat) ∈ (restoredProjs a projs0).map (fun j => j.ident.uid) := List.mem_map.2 ⟨j, hj, hd.uid⟩
  constructor
  · rw [heard_at h.run (split_at hT rest) _ hmem] at hx
    have hx := (List.mem_filter.1 hx).1
    have : x ∈ external (inferLayout a u loggers) ((is.take T).map Item.iter) is[T] ∨ x ∈ is[T].out.spikes := by
      cases be with
      | single => exact List.mem_append.1 hx
      | multi config sched => exact (List.mem_append.1 hx).symm
    rcases this with hx | hx
    · exact ((C119_senders h.run (split_at hT rest)).2 x hx).1
    · exact (spikes_at h.run (split_at hT rest) x hx).1
  · rcases List.mem_append.1 (infer_hears_only h hT hmem hx) with hi | hi
    · exfalso
      obtain ⟨k', _, hc, _⟩ := infer_inputs_cases h hi
      have hc : (fresh + 10 * k + 5 : Nat) = fresh + 10 * k' + 3 := hc
      omega
    · obtain ⟨m, _, hm1, hm2⟩ := infer_handler_inputs h hi
      have hm1 : (fresh + 10 * k + 5 : Nat) = fresh + 10 * m + 5 := hm1
      have : m = k := by omega
      rw [hm2, this]

private theorem named (h : InferRun (N := N) be arith o p fresh a pops0 projs0 d winners maxSize u loggers observe draw advance u0 acts s is rest)
    (popName : UID → M) (wta : M) : (∀ v ∈ (restoredPops a pops0).map Learn.Pop.uid,
      (inferNames popName wta a u (restoredPops a pops0)).lookup v = some (popName v)) ∧
    ∀ k < p.subnetworks, (inferNames popName wta a u (restoredPops a pops0)).lookup (u.handler k) = some wta := by
  unfold inferNames logNames
  refine ⟨fun v hv => lookup_own _ _ hv, fun k hk => ?_⟩
  rw [lookup_skip]
  · have hm : u.handler k ∈ (addWtaHandlers u.handler 0 ⟨[], [], [], []⟩ a.wtaData).2 := by
      rw [addWta_spec]
      refine List.mem_map.2 ⟨k, ?_, by simp⟩
      rw [List.mem_range, infer_wta_length h]
      exact hk
    have := lookup_own (f := fun _ => wta) _ [] hm
    rwa [List.append_nil] at this
  · intro hc
    exact not_both (h.uids.handlers k hk).1 (infer_pop_uids h hc)

section
variable {M : Type}

private theorem log_append (names : List (UID × M)) : ∀ (l l' : List SpikeMessage) (r r' : List (Mon.SpikeRecord M)), Mon.spikesLog names l = .ok r →
    Mon.spikesLog names l' = .ok r' → Mon.spikesLog names (l ++ l') = .ok (r ++ r')
  | [], l', r, r', h, h' => by
    simp only [Mon.spikesLog, Outcome.ok.injEq] at h
    subst h
    exact h'
  | m :: l, l', r, r', h, h' => by
    rw [List.cons_append]
    unfold Mon.spikesLog at h ⊢
    split at h
    · cases h
    · split at h
      · rename_i hl
        rw [log_append names l l' _ r' hl h']
        simp only [Outcome.ok.injEq] at h ⊢
        rw [← h]
        rfl
      · cases h
      · cases h

private theorem log_map (names : List (UID × M)) (t : Nat) (g : SpikeMessage → M) : ∀ {l : List SpikeMessage},
    (∀ m ∈ l, names.lookup m.header.senderUid = some (g m) ∧ m.header.sendTime = t) →
    Mon.spikesLog names l = .ok (l.map (fun m => ⟨t, g m, m.neuronIndexes⟩))
  | [], _ => rfl
  | m :: l, h => by
    unfold Mon.spikesLog
    rw [(h m (by simp)).1]
    simp only
    rw [log_map names t g (l := l) (fun x hx => h x (by simp [hx])), (h m (by simp)).2]
    rfl

private theorem log_flat {α : Type} (names : List (UID × M)) (f : α → List SpikeMessage) (g : α → List (Mon.SpikeRecord M)) : ∀ (l : List α),
    (∀ k ∈ l, Mon.spikesLog names (f k) = .ok (g k)) → Mon.spikesLog names (l.flatMap f) = .ok (l.flatMap g)
  | [], _ => rfl
  | k :: l, h => by
    rw [List.flatMap_cons, List.flatMap_cons]
    exact log_append names _ _ _ _ (h k (by simp)) (log_flat names f g l (fun x hx => h x (by simp [hx])))

private theorem log_calls {α : Type} (names : List (UID × M)) (f : α → Mon.Call) (g : α → List (Mon.SpikeRecord M)) : ∀ {l : List α},
    (∀ i ∈ l, Mon.spikesLog names (f i).msgs = .ok (g i)) → spikesLogOf names (l.map f) = .ok (l.flatMap g)
  | [], _ => rfl
  | i :: l, h => by
    rw [List.map_cons, List.flatMap_cons]
    unfold spikesLogOf
    rw [h i (by simp)]
    simp only
    rw [log_calls names f g (l := l) (fun x hx => h x (by simp [hx]))]

end

/-- C169, raw spikes log of an inference.  Whatever the backend and the other loggers, the file has exactly these lines, in this order: step by step, a line for
every spike of every population in that step, with the population's name and UID; then a line, named `wta`, for every winner the projection into the
output population of a subnetwork hears in that step - by C168_winners the winners among the neurons that fired one step earlier.  No sender is
unknown and no image spike is logged. -/
theorem C169_raw_log (h : InferRun (N := N) be arith o p fresh a pops0 projs0 d winners maxSize u loggers observe draw advance u0 acts s is rest)
    (hrest : iters rest = []) (popName : UID → M) (wta : M) (n : Nat) (v : UID)
    (ho : loggers[n]? = some (logObserver v (inferNames popName wta a u (restoredPops a pops0)))) :
    rawLog (inferNames popName wta a u (restoredPops a pops0)) (callsOf n (is.map Item.iter ++ rest)) =
      is.flatMap (fun i =>
        i.out.spikes.flatMap (fun m => m.neuronIndexes.map (fun x => ⟨i.time, some (popName m.header.senderUid), m.header.senderUid, x⟩)) ++
        (List.range p.subnetworks).flatMap (fun k => (heardBy i.out (fresh + 10 * k + 5)).flatMap (fun m => m.neuronIndexes.map (fun x =>
          ⟨i.time, some wta, u.handler k, x⟩)))) := by
  rw [calls_run hrest]
  unfold rawLog
  rw [List.flatMap_map]
  refine flat_same _ (fun i hi => ?_)
  obtain ⟨T, hT, rfl⟩ := List.getElem_of_mem hi
  rw [logged h popName wta n v ho hT]
  unfold rawRows
  rw [List.flatMap_append, List.flatMap_assoc]
  obtain ⟨hn1, hn2⟩ := named h popName wta
  congr 1
  · refine flat_same _ (fun m hm => ?_)
    obtain ⟨h1, h2⟩ := spikes_at h.run (split_at hT rest) m hm
    rw [hn1 _ h2, h1]
  · refine flat_same _ (fun k hk => flat_same _ (fun m hm => ?_))
    have hk := List.mem_range.1 hk
    obtain ⟨h1, h2⟩ := winner_stamp h hT hk hm
    rw [h1, h2, hn2 k hk]

/-- C169, console log of an inference: the spikes logger never meets an unknown sender, and writes one record per spike message: step by step those of the
populations, then those of the handlers. -/
theorem C169_console_log (h : InferRun (N := N) be arith o p fresh a pops0 projs0 d winners maxSize u loggers observe draw advance u0 acts s is rest)
    (hrest : iters rest = []) (popName : UID → M) (wta : M) (n : Nat) (v : UID)
    (ho : loggers[n]? = some (logObserver v (inferNames popName wta a u (restoredPops a pops0)))) :
    spikesLogOf (inferNames popName wta a u (restoredPops a pops0)) (callsOf n (is.map Item.iter ++ rest)) = .ok (is.flatMap (fun i =>
        i.out.spikes.map (fun m => ⟨i.time, popName m.header.senderUid, m.neuronIndexes⟩) ++
        (List.range p.subnetworks).flatMap (fun k => (heardBy i.out (fresh + 10 * k + 5)).map (fun m => ⟨i.time, wta, m.neuronIndexes⟩)))) := by
  rw [calls_run hrest]
  obtain ⟨hn1, hn2⟩ := named h popName wta
  refine log_calls _ _ _ (fun i hi => ?_)
  dsimp only
  obtain ⟨T, hT, rfl⟩ := List.getElem_of_mem hi
  rw [logged h popName wta n v ho hT]
  refine log_append _ _ _ _ _ (log_map _ _ _ ?_) ?_
  · intro m hm
    obtain ⟨h1, h2⟩ := spikes_at h.run (split_at hT rest) m hm
    exact ⟨hn1 _ h2, h1⟩
  · refine log_flat _ _ _ _ (fun k hk => log_map _ _ _ ?_)
    intro m hm
    have hk := List.mem_range.1 hk
    obtain ⟨h1, h2⟩ := winner_stamp h hT hk hm
    exact ⟨by rw [h2]; exact hn2 k hk, h1⟩

/-! ## The weights log -/

omit [LinearOrder F] [IsStrictOrderedRing F] [Field F] in
private theorem log_snoc {P : Type} {step : Stepper P (Learn.Proj F) F} {L : Layout} {c : Code σ F} {period : Nat} {uid : UID} {x : Act σ} {l : List (Mon.WTok F)}
    {s1 s2 : Prog.State σ P (Learn.Proj F) F} {i : Item F} (ha : Prog.act step L c s1 x = .ok (s2, i)) (hw : weightsWritten period uid s2 i = .ok l) :
    ∀ (as : List (Act σ)) (s0 : Prog.State σ P (Learn.Proj F) F) (tr : List (Item F)) (log : List (Mon.WTok F)),
    Prog.run step L c s0 as = .ok (s1, tr) → weightsLogRun step L c period uid s0 as = .ok log →
    weightsLogRun step L c period uid s0 (as ++ [x]) = .ok (log ++ l)
  | [], s0, tr, log, hr, hl => by
    simp only [Prog.run, Outcome.ok.injEq, Prod.mk.injEq] at hr
    simp only [weightsLogRun, Outcome.ok.injEq] at hl
    subst hl
    rw [hr.1]
    simp only [List.nil_append, weightsLogRun, ha, hw, List.append_nil]
  | y :: as, s0, tr, log, hr, hl => by
    rw [List.cons_append]
    unfold Prog.run at hr
    unfold weightsLogRun at hl ⊢
    cases hy : Prog.act step L c s0 y with
    | throw w => rw [hy] at hr; cases hr
    | ub => rw [hy] at hr; cases hr
    | ok z =>
      obtain ⟨s', i'⟩ := z
      rw [hy] at hr hl
      simp only at hr hl ⊢
      cases hrun : Prog.run step L c s' as with
      | throw w => rw [hrun] at hr; cases hr
      | ub => rw [hrun] at hr; cases hr
      | ok z =>
        obtain ⟨s'', is''⟩ := z
        rw [hrun] at hr
        simp only [Outcome.ok.injEq, Prod.mk.injEq] at hr
        rw [hr.1] at hrun
        cases hww : weightsWritten period uid s' i' with
        | throw w => rw [hww] at hl; cases hl
        | ub => rw [hww] at hl; cases hl
        | ok l0 =>
          rw [hww] at hl
          simp only at hl ⊢
          cases hl' : weightsLogRun step L c period uid s' as with
          | throw w => rw [hl'] at hl; cases hl
          | ub => rw [hl'] at hl; cases hl
          | ok ls =>
            rw [hl'] at hl
            simp only [Outcome.ok.injEq] at hl
            rw [log_snoc ha hw as s' is'' ls hrun hl', ← hl]
            simp

omit [LinearOrder F] [IsStrictOrderedRing F] [Field F] in
private theorem run_snoc {P J : Type} {step : Stepper P J F} {L : Layout} {c : Code σ F} {x : Act σ} {s2 : Prog.State σ P J F} :
    ∀ (as : List (Act σ)) (s0 : Prog.State σ P J F) (tr : List (Item F)), Prog.run step L c s0 (as ++ [x]) = .ok (s2, tr) →
    ∃ s1 tr1 i, Prog.run step L c s0 as = .ok (s1, tr1) ∧ Prog.act step L c s1 x = .ok (s2, i) ∧ tr = tr1 ++ [i]
  | [], s0, tr, h => by
    simp only [List.nil_append, Prog.run] at h
    cases hy : Prog.act step L c s0 x with
    | throw w => rw [hy] at h; cases h
    | ub => rw [hy] at h; cases h
    | ok z =>
      obtain ⟨s', i'⟩ := z
      rw [hy] at h
      simp only [Outcome.ok.injEq, Prod.mk.injEq] at h
      exact ⟨s0, [], i', rfl, by rw [hy, h.1], h.2.symm⟩
  | y :: as, s0, tr, h => by
    rw [List.cons_append] at h
    unfold Prog.run at h ⊢
    cases hy : Prog.act step L c s0 y with
    | throw w => rw [hy] at h; cases h
    | ub => rw [hy] at h; cases h
    | ok z =>
      obtain ⟨s', i'⟩ := z
      rw [hy] at h
      simp only at h ⊢
      cases hrun : Prog.run step L c s' (as ++ [x]) with
      | throw w => rw [hrun] at h; cases h
      | ub => rw [hrun] at h; cases h
      | ok z =>
        obtain ⟨s'', is''⟩ := z
        rw [hrun] at h
        simp only [Outcome.ok.injEq, Prod.mk.injEq] at h
        rw [h.1] at hrun
        obtain ⟨s1, tr1, i, h1, h2, h3⟩ := run_snoc as s' is'' hrun
        refine ⟨s1, i' :: tr1, i, ?_, h2, ?_⟩
        · rw [h1]
        · rw [← h.2, h3]; rfl

omit [Field F] [LinearOrder F] [IsStrictOrderedRing F] in
private theorem act_kind {P J : Type} {step : Stepper P J F} {L : Layout} {c : Code σ F} {x : Act σ} {s1 s2 : Prog.State σ P J F} {i : Item F}
    (h : Prog.act step L c s1 x = .ok (s2, i)) : (∃ f j, x = .iterate f ∧ i = .iter j) ∨ ((∀ f, x ≠ .iterate f) ∧ ∀ j, i ≠ .iter j) := by
  cases x with
  | iterate f =>
    unfold Prog.act at h
    simp only at h
    split at h
    · simp only [Outcome.ok.injEq, Prod.mk.injEq] at h
      exact .inl ⟨f, _, rfl, h.2.symm⟩
    · cases h
    · cases h
  | halt f =>
    refine .inr ⟨(fun _ hc => by cases hc), fun j hc => ?_⟩
    simp only [Prog.act, Outcome.ok.injEq, Prod.mk.injEq] at h
    rw [hc] at h
    cases h.2
  | read n a b m =>
    refine .inr ⟨(fun _ hc => by cases hc), fun j hc => ?_⟩
    unfold Prog.act at h
    simp only at h
    split at h
    · cases h
    · split at h
      · simp only [Outcome.ok.injEq, Prod.mk.injEq] at h
        rw [hc] at h
        cases h.2
      · cases h
      · cases h

omit [Field F] [LinearOrder F] [IsStrictOrderedRing F] in
private theorem incr_range {l : List Nat} {n : Nat} (hl : l.Pairwise (· < ·)) (hm : ∀ x, x ∈ l ↔ x < n) : l = List.range n := by
  refine List.Perm.eq_of_pairwise (le := (· < ·)) (fun a b _ _ h1 h2 => absurd h1 (by omega)) hl List.pairwise_lt_range ?_
  rw [List.perm_ext_iff_of_nodup (hl.imp (fun h => Nat.ne_of_lt h)) List.nodup_range]
  intro x
  rw [hm, List.mem_range]

/-- What the synapses `syn m i`, from pixel `m` to input neuron `i`, look like in the weights log. -/
def weightLines (p : Params F) (syn : Nat → Nat → RSyn F) : List (Mon.WTok F) :=
  (List.range p.inputs).flatMap (fun i => Mon.WTok.neuron i :: (List.range p.inputSize).map (fun m =>
    Mon.WTok.entry (syn m i).rule.resource (syn m i).rule.lastSpikeStep))

/-- The synapses of projection `uid` of `projs` are the `syn m i`, each once. -/
def SynapsesAre (p : Params F) (projs : List (Learn.Proj F)) (uid : UID) (syn : Nat → Nat → RSyn F) : Prop :=
  ∃ j ∈ projs, j.ident.uid = uid ∧ ∃ ss x y, j.syns = .resource [] ss x y ∧
    ss.Perm ((List.range p.inputs).flatMap (fun i => (List.range p.inputSize).map (fun m => syn m i))) ∧
    ∀ m < p.inputSize, ∀ i < p.inputs, (syn m i).source = m ∧ (syn m i).target = i

omit [IsStrictOrderedRing F] in
private theorem section_log (hfit : Fit p) {projs : List (Learn.Proj F)} (hnd : (projs.map (fun j => j.ident.uid)).Nodup) {uid : UID} {syn : Nat → Nat → RSyn F}
    (hpix : 0 < p.inputSize) (hs : SynapsesAre p projs uid syn) (period step : Nat) (hstep : step % period = 0) :
    Mon.weightsLog period uid step (projs.map logProj) = .ok (.step step :: (weightLines p syn ++ [.endl])) := by
  obtain ⟨j, hj, hju, ss, x, y, hsy, hperm, hends⟩ := hs
  have hfind : (projs.map logProj).find? (fun q => q.1 == uid) =
      some (uid, some (ss.map (fun x => (⟨x.source, x.target, x.weight, x.rule.resource, x.rule.lastSpikeStep⟩ : Mon.WSyn F)))) := by
    have hl : logProj j = (uid, some (ss.map (fun x => (⟨x.source, x.target, x.weight, x.rule.resource, x.rule.lastSpikeStep⟩ : Mon.WSyn F)))) := by
      unfold logProj
      rw [hju, hsy]
    have key : ∀ l : List (Learn.Proj F), (l.map (fun j => j.ident.uid)).Nodup → j ∈ l → (l.map logProj).find? (fun q => q.1 == uid) = some (logProj j) := by
      intro l
      induction l with
      | nil => intro _ h; cases h
      | cons z l ih =>
        intro hn hm
        rw [List.map_cons, List.nodup_cons] at hn
        rw [List.map_cons, List.find?_cons]
        rcases List.mem_cons.1 hm with rfl | hm
        · have : ((logProj j).1 == uid) = true := by
            show (j.ident.uid == uid) = true
            simp [hju]
          rw [this]
        · have hz : z.ident.uid ≠ uid := fun hc => hn.1 (List.mem_map.2 ⟨j, hm, by rw [hju, hc]⟩)
          have : ((logProj z).1 == uid) = false := by
            show (z.ident.uid == uid) = false
            simp [hz]
          rw [this]
          exact ih hn.2 hm
    rw [key projs hnd hj, hl]
  have hmem : ∀ z, z ∈ ss ↔ ∃ i < p.inputs, ∃ m < p.inputSize, z = syn m i := by
    intro z
    rw [hperm.mem_iff]
    simp only [List.mem_flatMap, List.mem_map, List.mem_range, eq_comm]
  have hin := hfit.small
  obtain ⟨gs, hlog, hinc, hall, hsec⟩ := C102_sections_partial period uid step (projs.map logProj) _ hfind hstep (by
    intro w hw
    obtain ⟨z, hz, rfl⟩ := List.mem_map.1 hw
    obtain ⟨i, hi, m, hm, rfl⟩ := (hmem z).1 hz
    show (syn m i).target ≠ _
    rw [(hends m hm i hi).2]
    omega)
  rw [hlog]
  congr 3
  have hfst : gs.map Prod.fst = List.range p.inputs := by
    refine incr_range (by rw [List.pairwise_map]; exact hinc) (fun n => ?_)
    have hn := hall n
    rw [show n ∈ gs.map Prod.fst ↔ ∃ g ∈ gs, g.1 = n from List.mem_map, hn]
    constructor
    · rintro ⟨w, hw, rfl⟩
      obtain ⟨z, hz, rfl⟩ := List.mem_map.1 hw
      obtain ⟨i, hi, m, hm, rfl⟩ := (hmem z).1 hz
      show (syn m i).target < _
      rw [(hends m hm i hi).2]
      exact hi
    · intro hn
      exact ⟨_, List.mem_map.2 ⟨syn 0 n, (hmem _).2 ⟨n, hn, 0, hpix, rfl⟩, rfl⟩, (hends 0 hpix n hn).2⟩
  have hg : ∀ g ∈ gs, g.1 < p.inputs ∧ g.2 = (List.range p.inputSize).map (fun m => (⟨g.1, m, (syn m g.1).rule.resource, (syn m g.1).rule.lastSpikeStep⟩ : Mon.Entry F)) := by
    intro g hgm
    have hlt : g.1 < p.inputs := by
      have : g.1 ∈ gs.map Prod.fst := List.mem_map_of_mem hgm
      rw [hfst] at this
      exact List.mem_range.1 this
    refine ⟨hlt, ?_⟩
    obtain ⟨h1, h2⟩ := hsec g hgm
    have h3 : g.2.Perm ((List.range p.inputSize).map (fun m => (⟨g.1, m, (syn m g.1).rule.resource, (syn m g.1).rule.lastSpikeStep⟩ : Mon.Entry F))) := by
      refine h2.trans ?_
      have hp1 : (ss.filter (fun z => z.target == g.1)).Perm ((List.range p.inputSize).map (fun m => syn m g.1)) := by
        refine (hperm.filter _).trans ?_
        have : ∀ n ≤ p.inputs, ((List.range n).flatMap (fun i => (List.range p.inputSize).map (fun m => syn m i))).filter (fun z => z.target == g.1) =
            if g.1 < n then (List.range p.inputSize).map (fun m => syn m g.1) else [] := by
          intro n
          induction n with
          | zero => intro _; simp
          | succ n ih =>
            intro hn
            rw [List.range_succ, List.flatMap_append, List.filter_append, ih (by omega), List.flatMap_cons, List.flatMap_nil, List.append_nil]
            by_cases hgn : g.1 = n
            · rw [if_neg (by omega), if_pos (by omega), List.nil_append, List.filter_eq_self.2, hgn]
              intro z hz
              obtain ⟨m, hm, rfl⟩ := List.mem_map.1 hz
              simp [(hends m (List.mem_range.1 hm) n (by omega)).2, hgn]
            · rw [List.filter_eq_nil_iff.2, List.append_nil]
              · by_cases hlt' : g.1 < n
                · rw [if_pos hlt', if_pos (by omega)]
                · rw [if_neg hlt', if_neg (by omega)]
              · intro z hz hc
                obtain ⟨m, hm, rfl⟩ := List.mem_map.1 hz
                rw [beq_iff_eq, (hends m (List.mem_range.1 hm) n (by omega)).2] at hc
                exact hgn hc.symm
        rw [this _ (Nat.le_refl _), if_pos hlt]
      have := hp1.map (fun z => (⟨z.target, z.source, z.rule.resource, z.rule.lastSpikeStep⟩ : Mon.Entry F))
      rw [List.filter_map, List.map_map]
      refine this.trans ?_
      rw [List.map_map]
      refine List.Perm.of_eq (List.map_congr_left (fun m hm => ?_))
      have := hends m (List.mem_range.1 hm) g.1 hlt
      show (⟨(syn m g.1).target, (syn m g.1).source, _, _⟩ : Mon.Entry F) = _
      rw [this.1, this.2]
    refine List.Perm.eq_of_pairwise (le := fun a b => a.sender ≤ b.sender) ?_ h1 ?_ h3
    · intro x y hx hy hxy hyx
      rw [h3.mem_iff] at hx
      obtain ⟨m, _, rfl⟩ := List.mem_map.1 hx
      obtain ⟨m', _, rfl⟩ := List.mem_map.1 hy
      have hxy : m ≤ m' := hxy
      have hyx : m' ≤ m := hyx
      have : m = m' := by omega
      rw [this]
    · rw [List.pairwise_map]
      exact List.pairwise_lt_range.imp (fun h => Nat.le_of_lt h)
  unfold printSections weightLines
  rw [← hfst, List.flatMap_map]
  refine flat_same _ (fun g hgm => ?_)
  rw [(hg g hgm).2]
  simp [List.map_map, Function.comp_def]

/-- The trained projections of a network in training. -/
private theorem synapses_are {pops : List (Learn.Pop N (Blifat F) F)} {L : Layout} {c : Code σ F} {inputs : List (UID × UID)} {tr : List (Item F)}
    (hfit : Fit p) (ha : construct p fresh = .ok a) (h : ProgRun .single o L c pops (loadProjs a.builder.network) inputs u0 acts s tr)
    (k : Nat) (hk : k < p.subnetworks) : ∃ syn, SynapsesAre p s.core.projs (fresh + 10 * k + 3) syn := by
  obtain ⟨a', ha', _, hdraw, _⟩ := C166_network p hfit fresh
  rw [ha] at ha'
  simp only [Outcome.ok.injEq] at ha'
  subst ha'
  obtain ⟨_, hgrown, _⟩ := prog_keeps h
  have hm : (⟨fresh + 10 * k + 3, 0, fresh + 10 * k, true, 0, 1, .excitatory, fun a i => a < p.inputSize ∧ i < p.inputs⟩ : Arrow F) ∈
      (List.range p.subnetworks).flatMap (fun s => arrows p (fresh + 10 * s)) :=
    List.mem_flatMap.2 ⟨k, List.mem_range.2 hk, by unfold arrows; exact List.mem_cons_self⟩
  obtain ⟨n, hn, he⟩ := List.getElem_of_mem hm
  have hn1 := hn
  rw [← hdraw.length_eq] at hn1
  have hn2 := hn1
  rw [hgrown.length_eq] at hn2
  have hd := hdraw.get hn1 hn
  have hg := hgrown.get hn1 hn2
  simp only [List.get_eq_getElem] at hd hg
  rw [he] at hd
  have hkept := kept_of hd hg
  have hjm := List.getElem_mem hn2
  generalize s.core.projs[n] = j at hkept hjm
  obtain ⟨ss, x, y, hss⟩ := hkept.learns rfl
  have hss : j.syns = .resource [] ss x y := hss
  have hpairs : (wired j.syns).synapses.map (fun y => (y.source, y.target)) = ss.map (fun z => (z.source, z.target)) := by
    rw [hss]
    simp [wired, Function.comp_def]
  have honce : ∀ m i, m < p.inputSize → i < p.inputs → (ss.map (fun z => (z.source, z.target))).count (m, i) = 1 := by
    intro m i h1 h2
    rw [← hpairs]
    exact hkept.once m i ⟨h1, h2⟩
  have honly : ∀ z ∈ ss, z.source < p.inputSize ∧ z.target < p.inputs := by
    intro z hz
    by_contra hc
    refine hkept.only z.source z.target hc ?_
    show _ ∈ (wired j.syns).synapses.map (fun y => (y.source, y.target))
    rw [hpairs]
    exact List.mem_map.2 ⟨z, hz, rfl⟩
  have hnd : (ss.map (fun z => (z.source, z.target))).Nodup := by
    rw [List.nodup_iff_count_le_one]
    rintro ⟨m, i⟩
    by_cases hc : m < p.inputSize ∧ i < p.inputs
    · rw [honce m i hc.1 hc.2]
    · rw [List.count_eq_zero_of_not_mem]
      · omega
      · intro hm
        obtain ⟨z, hz, he⟩ := List.mem_map.1 hm
        have he := Prod.mk.inj he
        have := honly z hz
        rw [he.1, he.2] at this
        exact hc this
  have hex : ∀ m i, ∃ z : RSyn F, m < p.inputSize → i < p.inputs → z ∈ ss ∧ z.source = m ∧ z.target = i := by
    intro m i
    by_cases hc : m < p.inputSize ∧ i < p.inputs
    · have hpos : 0 < (ss.map (fun z => (z.source, z.target))).count (m, i) := by rw [honce m i hc.1 hc.2]; omega
      obtain ⟨z, hz, he⟩ := List.mem_map.1 (List.count_pos_iff.1 hpos)
      have he := Prod.mk.inj he
      exact ⟨z, fun _ _ => ⟨hz, he.1, he.2⟩⟩
    · exact ⟨⟨0, 0, 0, 0, .excitatory, ⟨0, 0, 0, 0, 0, 0, false, false⟩⟩, fun h1 h2 => absurd ⟨h1, h2⟩ hc⟩
  choose syn hsyn using hex
  refine ⟨syn, j, hjm, hkept.uid, ss, x, y, hss, ?_, fun m hm i hi => (hsyn m i hm hi).2⟩
  have hnds : ss.Nodup := List.Nodup.of_map _ hnd
  have hnd2 : ((List.range p.inputs).flatMap (fun i => (List.range p.inputSize).map (fun m => syn m i))).Nodup := by
    rw [List.nodup_flatMap]
    constructor
    · intro i hi
      refine List.Nodup.map_on (fun m hm m' hm' he => ?_) List.nodup_range
      have hi := List.mem_range.1 hi
      rw [← (hsyn m i (List.mem_range.1 hm) hi).2.1, ← (hsyn m' i (List.mem_range.1 hm') hi).2.1, he]
    · refine (List.nodup_range.pairwise_of_forall_ne (r := fun i i' => List.Disjoint ((List.range p.inputSize).map (fun m => syn m i))
        ((List.range p.inputSize).map (fun m => syn m i'))) ?_)
      intro i hi i' hi' hne z h1 h2
      obtain ⟨m, hm, rfl⟩ := List.mem_map.1 h1
      obtain ⟨m', hm', he⟩ := List.mem_map.1 h2
      have e1 := (hsyn m i (List.mem_range.1 hm) (List.mem_range.1 hi)).2.2
      have e2 := (hsyn m' i' (List.mem_range.1 hm') (List.mem_range.1 hi')).2.2
      rw [he] at e2
      exact hne (e1.symm.trans e2)
  rw [List.perm_ext_iff_of_nodup hnds hnd2]
  intro z
  constructor
  · intro hz
    obtain ⟨h1, h2⟩ := honly z hz
    refine List.mem_flatMap.2 ⟨z.target, List.mem_range.2 h2, List.mem_map.2 ⟨z.source, List.mem_range.2 h1, ?_⟩⟩
    obtain ⟨h3, h4, h5⟩ := hsyn z.source z.target h1 h2
    exact List.inj_on_of_nodup_map hnd h3 hz (by rw [h4, h5])
  · intro hz
    obtain ⟨i, hi, hz⟩ := List.mem_flatMap.1 hz
    obtain ⟨m, hm, rfl⟩ := List.mem_map.1 hz
    exact (hsyn m i (List.mem_range.1 hm) (List.mem_range.1 hi)).1

/-- C169, weights log of a training.  Whatever program trains the network of the example on the single-threaded backend - its channels, handlers, observers and
code, and however many steps it has made so far -, the weights logger of the trained projection of a subnetwork never throws.  In every iteration after
which the step counter is a multiple of the period it appends the step, then for every input neuron, in order, a line with the resource and the
last spike step of its synapses from all pixels, in order, as they are after that iteration; nothing otherwise. -/
theorem C169_weights_log {pops : List (Learn.Pop N (Blifat F) F)} {L : Layout} {c : Code σ F} {inputs : List (UID × UID)} {tr : List (Item F)}
    (hfit : Fit p) (hpix : 0 < p.inputSize) (ha : construct p fresh = .ok a) (k : Nat) (hk : k < p.subnetworks) (period : Nat) (x : Act σ)
    (h : ProgRun .single o L c pops (loadProjs a.builder.network) inputs u0 (acts ++ [x]) s tr) :
    ∃ (log : List (Mon.WTok F)) (syn : Nat → Nat → RSyn F), SynapsesAre p s.core.projs (fresh + 10 * k + 3) syn ∧
      weightsLogRun ((Prog.Backend.single : Prog.Backend F).step o) L c period (fresh + 10 * k + 3)
        (Prog.boot (Learn.machine o) L pops (loadProjs a.builder.network) inputs u0) acts = .ok log ∧
      weightsLogRun ((Prog.Backend.single : Prog.Backend F).step o) L c period (fresh + 10 * k + 3)
        (Prog.boot (Learn.machine o) L pops (loadProjs a.builder.network) inputs u0) (acts ++ [x]) =
          .ok (log ++ match (generalizing := false) x with
            | .iterate _ => if s.core.step % period = 0 then .step s.core.step :: (weightLines p syn ++ [.endl]) else []
            | _ => []) := by
  have one : ∀ (as : List (Act σ)) (y : Act σ) (s2 : Prog.State σ (Learn.Pop N (Blifat F) F) (Learn.Proj F) F) (tr2 : List (Item F)) (log : List (Mon.WTok F)),
      ProgRun .single o L c pops (loadProjs a.builder.network) inputs u0 (as ++ [y]) s2 tr2 →
      weightsLogRun ((Prog.Backend.single : Prog.Backend F).step o) L c period (fresh + 10 * k + 3)
        (Prog.boot (Learn.machine o) L pops (loadProjs a.builder.network) inputs u0) as = .ok log →
      ∃ syn, SynapsesAre p s2.core.projs (fresh + 10 * k + 3) syn ∧
        weightsLogRun ((Prog.Backend.single : Prog.Backend F).step o) L c period (fresh + 10 * k + 3)
          (Prog.boot (Learn.machine o) L pops (loadProjs a.builder.network) inputs u0) (as ++ [y]) =
          .ok (log ++ match (generalizing := false) y with
            | .iterate _ => if s2.core.step % period = 0 then .step s2.core.step :: (weightLines p syn ++ [.endl]) else []
            | _ => []) := by
    intro as y s2 tr2 log hr hl
    obtain ⟨syn, hsyn⟩ := synapses_are hfit ha hr k hk
    refine ⟨syn, hsyn, ?_⟩
    obtain ⟨s1, tr1, i, h1, h2, _⟩ := run_snoc _ _ _ hr.run
    refine log_snoc h2 ?_ as _ tr1 log h1 hl
    have hnd : (s2.core.projs.map (fun j => j.ident.uid)).Nodup := by
      have e : s2.core.projs.map (fun j => j.ident.uid) = (loadProjs a.builder.network).map (fun j => j.ident.uid) := by
        have := (prog_keeps hr).2.1
        generalize loadProjs a.builder.network = l at this
        generalize s2.core.projs = l' at this
        induction this with
        | nil => rfl
        | cons hab _ ih => rw [List.map_cons, List.map_cons, ih, hab.ident]
      rw [e]
      exact hr.projUids
    rcases act_kind h2 with ⟨f, j, rfl, rfl⟩ | ⟨hx, hi⟩
    · unfold weightsWritten
      simp only
      by_cases hs : s2.core.step % period = 0
      · rw [if_pos hs]
        exact section_log hfit hnd hpix hsyn period _ hs
      · rw [if_neg hs]
        exact (C102_other period _ _ _).1 hs
    · have e1 : weightsWritten period (fresh + 10 * k + 3) s2 i = .ok [] := by
        cases i with
        | iter j => exact absurd rfl (hi j)
        | halt => rfl
        | read => rfl
      rw [e1]
      cases y with
      | iterate f => exact absurd rfl (hx f)
      | halt => rfl
      | read => rfl
  have all : ∀ (as : List (Act σ)) (s2 : Prog.State σ (Learn.Pop N (Blifat F) F) (Learn.Proj F) F) (tr2 : List (Item F)),
      ProgRun .single o L c pops (loadProjs a.builder.network) inputs u0 as s2 tr2 →
      ∃ log, weightsLogRun ((Prog.Backend.single : Prog.Backend F).step o) L c period (fresh + 10 * k + 3)
        (Prog.boot (Learn.machine o) L pops (loadProjs a.builder.network) inputs u0) as = .ok log := by
    intro as
    induction as using List.reverseRecOn with
    | nil => intro _ _ _; exact ⟨[], rfl⟩
    | append_singleton as y ih =>
      intro s2 tr2 hr
      obtain ⟨s1, tr1, i, h1, _, _⟩ := run_snoc _ _ _ hr.run
      obtain ⟨log, hl⟩ := ih s1 tr1 ⟨hr.popUids, hr.projUids, hr.queues, h1⟩
      obtain ⟨_, _, hl'⟩ := one as y s2 tr2 log hr hl
      exact ⟨_, hl'⟩
  obtain ⟨s1, tr1, i, h1, _, _⟩ := run_snoc _ _ _ h.run
  obtain ⟨log, hl⟩ := all acts s1 tr1 ⟨h.popUids, h.projUids, h.queues, h1⟩
  obtain ⟨syn, hs, hl'⟩ := one acts x s tr log h hl
  exact ⟨log, syn, hs, hl, hl'⟩

omit [Field F] [LinearOrder F] [IsStrictOrderedRing F] in
private theorem turn_log {β α : Type} {log : σ → List α} {f : Nat → σ → β × σ} {line : Nat → List α} (hf : ∀ k u, log (f k u).2 = log u ++ line k) :
    ∀ (ks : List Nat) (u : σ), log (inTurn f ks u).2 = log u ++ ks.flatMap line
  | [], u => by simp [inTurn]
  | k :: ks, u => by
    simp only [inTurn, List.flatMap_cons]
    rw [turn_log hf ks, hf, List.append_assoc]

omit [Field F] [LinearOrder F] [IsStrictOrderedRing F] in
private theorem turn_keeps {β α : Type} {log : σ → List α} {f : Nat → σ → β × σ} (hf : ∀ k u, log (f k u).2 = log u) :
    ∀ (ks : List Nat) (u : σ), log (inTurn f ks u).2 = log u
  | [], u => rfl
  | k :: ks, u => by
    simp only [inTurn]
    rw [turn_keeps hf ks, hf]

omit [Field F] [LinearOrder F] [IsStrictOrderedRing F] in
/-- What the observers of a program write, when nothing else writes. -/
theorem user_log {α : Type} {L : Layout} {c : Code σ F} (log : σ → List α) (line : Nat → List (Message F) → List α)
    (hgen : ∀ k u t, log (c.gen k u t).2 = log u) (hhandle : ∀ k u ms, log (c.handle k u ms).2 = log u)
    (hobs : ∀ k u ms, log (c.observe k u ms) = log u ++ line k ms) :
    ∀ (acts : List (Act σ)) (tr : List (Item F)) (u u' : σ), (∀ f, Act.iterate f ∈ acts ∨ Act.halt f ∈ acts → ∀ u, log (f u) = log u) →
      UserRun L c u acts tr u' →
      log u' = log u ++ (iters tr).flatMap (fun i => (List.range L.observers.length).flatMap (fun n => line n (i.observed.getD n [])))
  | [], [], u, u', _, h => by
    simp only [UserRun] at h
    simp [iters, h]
  | .iterate p :: as, .iter i :: tr, u, u', hp, h => by
    simp only [UserRun] at h
    have := user_log log line hgen hhandle hobs as tr _ u' (fun f hf => hp f (hf.imp (List.mem_cons_of_mem _) (List.mem_cons_of_mem _))) h.2.2
    rw [this, turn_log (log := log) (f := fun k u => ((), c.observe k u (i.observed.getD k []))) (line := fun k => line k (i.observed.getD k []))
      (fun k u => hobs k u _), turn_keeps (log := log) (f := fun k u => c.handle k u ((i.handled.map (·.1)).getD k [])) (fun k u => hhandle k u _),
      hp p (.inl List.mem_cons_self), turn_keeps (log := log) (f := fun k u => c.gen k u i.time) (fun k u => hgen k u _), List.append_assoc]
    simp [iters]
  | .halt p :: as, .halt t fed :: tr, u, u', hp, h => by
    simp only [UserRun] at h
    have := user_log log line hgen hhandle hobs as tr _ u' (fun f hf => hp f (hf.imp (List.mem_cons_of_mem _) (List.mem_cons_of_mem _))) h.2
    rw [this, hp p (.inr List.mem_cons_self), turn_keeps (log := log) (f := fun k u => c.gen k u t) (fun k u => hgen k u _)]
    simp [iters]
  | .read n a b _ :: as, .read n' a' b' _ :: tr, u, u', hp, h => by
    simp only [UserRun] at h
    have := user_log log line hgen hhandle hobs as tr _ u' (fun f hf => hp f (hf.imp (List.mem_cons_of_mem _) (List.mem_cons_of_mem _))) h.2
    rw [this]
    simp [iters]
  | [], _ :: _, _, _, _, h => by simp [UserRun] at h
  | .iterate _ :: _, [], _, _, _, h => by simp [UserRun] at h
  | .iterate _ :: _, .halt _ _ :: _, _, _, _, h => by simp [UserRun] at h
  | .iterate _ :: _, .read _ _ _ _ :: _, _, _, _, h => by simp [UserRun] at h
  | .halt _ :: _, [], _, _, _, h => by simp [UserRun] at h
  | .halt _ :: _, .iter _ :: _, _, _, _, h => by simp [UserRun] at h
  | .halt _ :: _, .read _ _ _ _ :: _, _, _, _, h => by simp [UserRun] at h
  | .read _ _ _ _ :: _, [], _, _, _, h => by simp [UserRun] at h
  | .read _ _ _ _ :: _, .iter _ :: _, _, _, _, h => by simp [UserRun] at h
  | .read _ _ _ _ :: _, .halt _ _ :: _, _, _, _, h => by simp [UserRun] at h

omit [Field F] [LinearOrder F] [IsStrictOrderedRing F] in
private theorem handle_keeps {α : Type} {log : σ → List α} {c : Code σ F} {base count maxSize winners : Nat} {borders : List Nat}
    (hc : ∀ k u ms, log (c.handle k u ms).2 = log u) (hadv : ∀ n u, log (advance n u) = log u) (k : Nat) (v : σ) (ms : List SpikeMessage) :
    log ((wtaCode c base count maxSize borders winners draw advance).handle k v ms).2 = log v := by
  unfold wtaCode
  dsimp only
  split
  · split
    · exact hadv _ _
    · rfl
  · exact hc _ _ _

omit [IsStrictOrderedRing F] in
/-- C169, what is written.  The state of the program may hold what the loggers write (`log`): if logger `n`, when called with the messages `ms`, appends
`line n ms`, and neither the draws of winner-take-all nor the predicate of `start` write, then after an inference `log` has what it had
before and, iteration by iteration, what every logger in turn appends for what it got; by C118 and C169_raw_log that is what was sent. -/
theorem C169_written (h : InferRun (N := N) be arith o p fresh a pops0 projs0 d winners maxSize u loggers observe draw advance u0 acts s is rest)
    {α : Type} (log : σ → List α) (line : Nat → List (Message F) → List α) (hobs : ∀ n u ms, log (observe n u ms) = log u ++ line n ms)
    (hadv : ∀ n u, log (advance n u) = log u) (hp : ∀ f, Act.iterate f ∈ acts ∨ Act.halt f ∈ acts → ∀ u, log (f u) = log u) :
    log s.user = log u0 ++ (is ++ iters rest).flatMap (fun i => (List.range loggers.length).flatMap (fun n => line n (i.observed.getD n []))) := by
  have := user_log (L := inferLayout a u loggers) (c := inferCode p a d winners maxSize observe draw advance) log line (fun _ _ _ => rfl)
    (handle_keeps (fun _ _ _ => rfl) hadv) hobs acts _ u0 s.user hp (C122_user_code h.run)
  rw [this]
  have e : iters (is.map Item.iter ++ rest) = is ++ iters rest := by
    unfold iters
    rw [List.filterMap_append, List.filterMap_map]
    simp
  rw [e, infer_layout_eq]

omit [IsStrictOrderedRing F] in
/-- C169, what is written in a training: as in an inference. -/
theorem C169_written_training {labelStep : Nat}
    (h : TrainRun (N := N) be arith o p fresh a d labelStep winners maxSize u loggers observe draw advance u0 acts s is rest)
    {α : Type} (log : σ → List α) (line : Nat → List (Message F) → List α) (hobs : ∀ n u ms, log (observe n u ms) = log u ++ line n ms)
    (hadv : ∀ n u, log (advance n u) = log u) (hp : ∀ f, Act.iterate f ∈ acts ∨ Act.halt f ∈ acts → ∀ u, log (f u) = log u) :
    log s.user = log u0 ++ (is ++ iters rest).flatMap (fun i => (List.range loggers.length).flatMap (fun n => line n (i.observed.getD n []))) := by
  have := user_log (L := trainLayout a u loggers) (c := trainCode p a d labelStep winners maxSize observe draw advance) log line (fun _ _ _ => rfl)
    (handle_keeps (fun _ _ _ => rfl) hadv) hobs acts _ u0 s.user hp (C122_user_code h.run)
  rw [this]
  have e : iters (is.map Item.iter ++ rest) = is ++ iters rest := by
    unfold iters
    rw [List.filterMap_append, List.filterMap_map]
    simp
  have e2 : (trainLayout a u loggers).observers = loggers := by
    unfold trainLayout
    rw [addWta_spec]
  rw [e, e2]

end

namespace MnistEx

/-- Populations are named by their UIDs, winner-take-all by 0. -/
def names (a : Annotated ℚ) (pops : List (Learn.Pop (Lif ℚ) (Blifat ℚ) ℚ)) : List (UID × Nat) := inferNames id 0 a u pops

/-- An inference with a spikes logger. -/
theorem logged : ∃ (a : Annotated ℚ) (pops0 : List (Learn.Pop (Lif ℚ) (Blifat ℚ) ℚ)) (projs0 : List (Learn.Proj ℚ)) (acts : List (Act (List Nat)))
    (s : Prog.State (List Nat) (Learn.Pop (Lif ℚ) (Blifat ℚ) ℚ) (Learn.Proj ℚ) ℚ) (is : List (Iter ℚ)) (rest : List (Item ℚ)),
    is.length = 10 ∧ iters rest = [] ∧
    InferRun .single arith StdpEx.o p 5 a pops0 projs0 d2 1 1000 u [logObserver 90 (inferNames id 0 a u (restoredPops a pops0))]
      (fun n u ms => u ++ [n, ms.length]) (fun _ _ _ _ => 0) (fun _ u => u) [] acts s is rest := by
  obtain ⟨a, acts, s, is, rest, _, _, h⟩ := run
  have ht : TrainedNet arith StdpEx.o p 5 a s.core.pops s.core.projs := ⟨_, _, _, _, _, _, _, _, _, _, _, _, _, _, _, h, rfl, rfl⟩
  obtain ⟨s', is', fed, acts', _, hl, hr⟩ := C168_inference (σ := List Nat) ht rfl d2 1 1000 u
    [logObserver 90 (inferNames id 0 a u (restoredPops a s.core.pops))] (fun n u ms => u ++ [n, ms.length]) (fun _ _ _ _ => 0) (fun _ u => u) []
  exact ⟨a, _, _, acts', s', is', _, hl, rfl, ht, uids, data2, by decide, by rw [hl], hr⟩

/-- A training of five steps, then inference with the network it left and a logger of the raw log. -/
def inferredLog : List (RawRow Nat) :=
  match construct p 5 with
  | .ok a => match Prog.start ((Prog.Backend.single : Prog.Backend ℚ).step StdpEx.o) (trainLayout a u [])
          (trainCode p a d2 3 1 1000 (fun _ (u : Nat) _ => u) (fun _ _ _ _ => 0) (fun _ u => u + 1)) (trainPred d2) 11
          (Prog.boot (Learn.machine (N := Lif ℚ) StdpEx.o) (trainLayout a u []) (loadPops arith a.builder.network) (loadProjs a.builder.network)
            (trainInputs a u) 0) with
    | some (.ok t) =>
      let names := inferNames id 0 a u (restoredPops a t.1.core.pops)
      match Prog.start ((Prog.Backend.single : Prog.Backend ℚ).step StdpEx.o) (inferLayout a u [logObserver 90 names])
          (inferCode p a d2 1 1000 (fun _ (u : Nat) _ => u) (fun _ _ _ _ => 0) (fun _ u => u + 1)) (inferPred d2) 11
          (Prog.boot (Learn.machine (N := Lif ℚ) StdpEx.o) (inferLayout a u [logObserver 90 names]) (restoredPops a t.1.core.pops)
            (restoredProjs a t.1.core.projs) (inferInputs a u) 0) with
      | some (.ok r) => rawLog names (callsOf 0 r.2)
      | _ => []
    | _ => []
  | _ => []
/-- The lines of the first subnetwork: input neurons fire, the winners are logged one step later, then the output neurons. -/
example : inferredLog.filter (fun r => decide (r.uid = 5 ∨ r.uid = 6 ∨ r.uid = 70)) =
   [⟨1, some 5, 5, 0⟩, ⟨1, some 5, 5, 1⟩, ⟨1, some 5, 5, 2⟩, ⟨1, some 5, 5, 3⟩, ⟨2, some 5, 5, 0⟩, ⟨2, some 5, 5, 1⟩, ⟨2, some 5, 5, 2⟩,
    ⟨2, some 5, 5, 3⟩, ⟨2, some 0, 70, 0⟩, ⟨2, some 0, 70, 2⟩, ⟨3, some 5, 5, 0⟩, ⟨3, some 5, 5, 1⟩, ⟨3, some 5, 5, 2⟩, ⟨3, some 5, 5, 3⟩,
    ⟨3, some 6, 6, 0⟩, ⟨3, some 6, 6, 1⟩, ⟨3, some 0, 70, 0⟩, ⟨3, some 0, 70, 2⟩, ⟨4, some 0, 70, 0⟩, ⟨4, some 0, 70, 2⟩] := by decide +kernel

/-- The weights log of the trained projection of the first subnetwork, with period 4, in the first five steps of a training. -/
def trainedLog : Option (List (Mon.WTok ℚ)) :=
  match construct p 5 with
  | .ok a => match weightsLogRun ((Prog.Backend.single : Prog.Backend ℚ).step StdpEx.o) (trainLayout a u [])
          (trainCode p a d2 3 1 1000 (fun _ (u : Nat) _ => u) (fun _ _ _ _ => 0) (fun _ u => u + 1)) 4 8
          (Prog.boot (Learn.machine (N := Lif ℚ) StdpEx.o) (trainLayout a u []) (loadPops arith a.builder.network) (loadProjs a.builder.network)
            (trainInputs a u) 0) (List.replicate 5 (Act.iterate id)) with
    | .ok l => some l
    | _ => none
  | _ => none
example : trainedLog = some [.step 4, .neuron 0, .entry (16/3) 3, .entry (16/3) 3, .entry (16/3) 2, .neuron 1, .entry (16/3) 3, .entry (16/3) 3, .entry (16/3) 2,
    .neuron 2, .entry (16/3) 3, .entry (16/3) 3, .entry (16/3) 2, .neuron 3, .entry (16/3) 3, .entry (16/3) 3, .entry (16/3) 2, .endl] := by decide +kernel

/-- A training run with a last action, as C169_weights_log needs. -/
example : ∃ (a : Annotated ℚ) (L : Layout) (c : Code Nat ℚ) (pops : List (Learn.Pop (Lif ℚ) (Blifat ℚ) ℚ)) (inputs : List (UID × UID)) (acts : List (Act Nat))
    (x : Act Nat) (s : Prog.State Nat (Learn.Pop (Lif ℚ) (Blifat ℚ) ℚ) (Learn.Proj ℚ) ℚ) (tr : List (Item ℚ)), construct p 5 = .ok a ∧ 0 < p.inputSize ∧
    ProgRun .single StdpEx.o L c pops (loadProjs a.builder.network) inputs 0 (acts ++ [x]) s tr := by
  obtain ⟨a, acts, s, is, rest, hl, _, h⟩ := run
  rcases List.eq_nil_or_concat acts with h0 | ⟨as, x, h0⟩
  · exfalso
    have := h.run.run
    rw [h0, Prog.run, Outcome.ok.injEq, Prod.mk.injEq] at this
    have := congrArg List.length this.2
    rw [List.length_append, List.length_map, hl, List.length_nil] at this
    omega
  · rw [h0, List.concat_eq_append] at h
    exact ⟨a, _, _, _, _, as, x, s, _, h.built, by decide, h.run⟩

end MnistEx

end Knp.Props
