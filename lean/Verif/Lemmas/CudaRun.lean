import Verif.Lemmas.CudaStep

/-! # Lemmas: a step and a run of the CUDA backend -/

namespace Knp.Cuda
open Knp Knp.Bus Knp.Spec Knp.Neurons

variable {F : Type}

/-- The device and the host endpoint are wired; nothing is in transit. -/
structure Wired (H : Hearing) (inputs : List (UID × UID)) (subs : List Sub) (e : Endpoint F) : Prop where
  keys : (subs.map Sub.key).Nodup
  dI : ∀ r s, dhears subs .impact r s = H.impact r s
  dS : ∀ r s, dhears subs .spike r s = H.spike r s
  hI : ∀ r s, Sys.hearsE e .impact r s = false
  hS : ∀ r s, Sys.hearsE e .spike r s = inputs.contains (r, s)
  senders : ∀ u ∈ e.senders, u ∈ inputs.map (·.2)
  quiet : Sys.Quiet e

/-- What holds between two steps. -/
structure Btw (H : Hearing) (inputs : List (UID × UID)) (chans : Nat) (s : State F) (projs : List (Sys.ProjSt F))
    (pending : List (SynapticImpactMessage F)) (e0 : Endpoint F) : Prop where
  ready : Sys.Ready chans s.world e0
  empty : ∀ i, i ≤ chans → outboxOf s.world i = []
  wired : ∀ order, Wired H inputs (if s.step = 0 then syncWithHost order s.dev.subs e0 else (s.dev.subs, e0)).1
    (if s.step = 0 then syncWithHost order s.dev.subs e0 else (s.dev.subs, e0)).2
  msgs : s.dev.msgs = pending.map (fun m => ⟨.impact m, false⟩)
  times : ∀ m ∈ pending, m.header.sendTime + 1 = s.step
  from_ : ∀ m ∈ pending, m.header.senderUid ∈ projs.map (·.ident.uid)
  match_ : List.Forall₂ Match s.dev.projs projs
  hearIn : ∀ i ∈ inputs, H.spike i.1 i.2 = true
  hear0 : ∀ r, H.spike r 0 = false
  apart : ∀ i ∈ inputs, i.2 ≠ 0 ∧ i.2 ∉ s.dev.pops.map (·.uid) ∧ i.2 ∉ projs.map (·.ident.uid)

theorem sendAll_eq (l : List (GMsg F)) : ∀ e : Endpoint F, l.foldl (fun e m => e.send m.body) e =
    { e with toSend := e.toSend ++ l.map (·.body) } := by
  induction l with
  | nil => intro e; simp
  | cons m l ih =>
    intro e
    rw [List.foldl_cons, ih]
    simp [Endpoint.send]

theorem sendToHost_eq (t : Nat) (msgs : List (GMsg F)) (e : Endpoint F) :
    sendToHost t msgs e = { e with toSend := e.toSend ++ (msgs.filter (goesToHost t)).map (·.body) } := sendAll_eq _ _

theorem same_toSend (e : Endpoint F) (l : List (Message F)) : Sys.Same e { e with toSend := l } :=
  ⟨rfl, fun _ _ _ => rfl, fun h => h⟩

/-! ## Which messages go to the host -/

theorem goes_old {t : Nat} (ht : t < two64) {m : GMsg F} (h1 : m.external = false) (h2 : m.body.header.sendTime + 1 = t) :
    goesToHost t m = true := by
  unfold goesToHost
  rw [h1, subU64_of_le (by omega) ht]
  have : m.body.header.sendTime = t - 1 := by omega
  simp [this]

theorem goes_now {t : Nat} {m : GMsg F} (h1 : m.external = false) (h2 : m.body.header.sendTime = t) : goesToHost t m = true := by
  unfold goesToHost
  simp [h1, h2]

theorem goes_external {t : Nat} {m : GMsg F} (h1 : m.external = true) : goesToHost t m = false := by
  unfold goesToHost
  simp [h1]

theorem goes_null {t : Nat} (ht : t < two64) : goesToHost t (nullMsg : GMsg F) = decide (t ≤ 1) := by
  have hz : (nullMsg : GMsg F).body.header.sendTime = 0 := rfl
  have he : (nullMsg : GMsg F).external = false := rfl
  unfold goesToHost
  rw [hz, he, Bool.not_false, Bool.and_true]
  have h1 : t = 0 → subU64 t 1 = two64 - 1 := by
    intro h; rw [h]; rw [subU64_of_gt (by omega) (by simp [two64])]; omega
  have h2 : 1 ≤ t → subU64 t 1 = t - 1 := fun h => subU64_of_le h ht
  generalize subU64 t 1 = x at *
  by_cases h0 : t = 0
  · simp [h0]
  · have := h2 (by omega)
    rw [this]
    by_cases h3 : t = 1
    · simp [h3]
    · have a : ¬ 0 = t - 1 := by omega
      have b : ¬ 0 = t := by omega
      have c : ¬ t ≤ 1 := by omega
      simp [a, b, c]

theorem host_old {t : Nat} (ht : t < two64) (pending : List (SynapticImpactMessage F)) (h : ∀ m ∈ pending, m.header.sendTime + 1 = t) :
    (pending.map (fun m => (⟨.impact m, false⟩ : GMsg F))).filter (goesToHost t) = pending.map (fun m => ⟨.impact m, false⟩) := by
  rw [List.filter_eq_self]
  intro m hm
  obtain ⟨x, hx, rfl⟩ := List.mem_map.1 hm
  exact goes_old ht rfl (h x hx)

theorem host_external (t : Nat) (l : List (Message F)) : (l.map gpuMessage).filter (goesToHost t) = [] := by
  rw [List.filter_eq_nil_iff]
  intro m hm
  obtain ⟨x, _, rfl⟩ := List.mem_map.1 hm
  rw [goes_external rfl]
  simp

theorem host_pops {t : Nat} (ht : t < two64) : ∀ (ss : List (Option SpikeMessage)), (∀ m, some m ∈ ss → m.header.sendTime = t) →
    ((ss.map (outMsg (F := F))).filter (goesToHost t)).map (·.body) = popsToHost t ss := by
  intro ss
  induction ss with
  | nil => intro _; rfl
  | cons s ss ih =>
    intro h
    have ih' := ih (fun m hm => h m (by simp [hm]))
    unfold popsToHost at ih' ⊢
    rw [List.map_cons, List.filter_cons, List.filterMap_cons]
    cases s with
    | some m =>
      have : goesToHost t (outMsg (F := F) (some m)) = true := goes_now rfl (h m (by simp))
      rw [if_pos this, List.map_cons, ih']
      rfl
    | none =>
      have : goesToHost t (outMsg (F := F) none) = decide (t ≤ 1) := goes_null ht
      rw [this]
      by_cases h1 : t ≤ 1
      · simp only [h1, decide_true, if_true, List.map_cons, ih']; rfl
      · simp only [h1, decide_false, Bool.false_eq_true, if_false, ih']

/-! ## What the entities are given -/

theorem forall₂_mapIdx {α β : Type} (R : α → β → Prop) : ∀ (l : List α) (f : Nat → α → β), (∀ i, ∀ a ∈ l, R a (f i a)) →
    List.Forall₂ R l (l.mapIdx f) := by
  intro l
  induction l with
  | nil => intro f _; simp
  | cons a l ih =>
    intro f h
    rw [List.mapIdx_cons]
    exact List.Forall₂.cons (h 0 a (by simp)) (ih _ (fun i b hb => h (i + 1) b (by simp [hb])))

theorem given_perm {subs : List Sub} (hk : (subs.map Sub.key).Nodup) (sc : Sched) (msgs : List (GMsg F)) (i : Nat) (r : UID) :
    (givenTo sc subs msgs i r).Perm
      ((Sys.impactsIn (msgs.map (·.body))).filter (fun m => dhears subs .impact r m.header.senderUid)) := by
  unfold givenTo
  have h1 := (unload_perm hk msgs (sc.pops i) .impact r).map (·.body)
  have h2 : (msgs.filter (fun m => m.body.kind == .impact && dhears subs .impact r m.body.sender)).map (·.body) =
      ((Sys.impactsIn (msgs.map (·.body))).filter (fun m => dhears subs .impact r m.header.senderUid)).map .impact := by
    rw [← Sys.filter_impacts (msgs.map (·.body)) (dhears subs .impact r), List.filter_map]
    rfl
  rw [h2] at h1
  have h3 : (Sys.impactsIn ((unload subs msgs (sc.pops i) .impact r).map (·.body))).Perm (Sys.impactsIn _) := List.Perm.filterMap _ h1
  rwa [Sys.impactsIn_map] at h3

theorem heard_perm {subs : List Sub} (hk : (subs.map Sub.key).Nodup) (sc : Sched) (msgs : List (GMsg F)) (i : Nat) (r : UID) :
    (heardBy sc subs msgs i r).Perm
      ((Sys.spikesIn (msgs.map (·.body))).filter (fun m => dhears subs .spike r m.header.senderUid)) := by
  unfold heardBy
  have h1 := (unload_perm hk msgs (sc.projs i) .spike r).map (·.body)
  have h2 : (msgs.filter (fun m => m.body.kind == .spike && dhears subs .spike r m.body.sender)).map (·.body) =
      ((Sys.spikesIn (msgs.map (·.body))).filter (fun m => dhears subs .spike r m.header.senderUid)).map .spike := by
    rw [← Sys.filter_spikes (msgs.map (·.body)) (dhears subs .spike r), List.filter_map]
    rfl
  rw [h2] at h1
  have h3 : (Sys.spikesIn ((unload subs msgs (sc.projs i) .spike r).map (·.body))).Perm (Sys.spikesIn _) := List.Perm.filterMap _ h1
  rwa [Sys.spikesIn_map] at h3

theorem impactsIn_append (a b : List (Message F)) : Sys.impactsIn (a ++ b) = Sys.impactsIn a ++ Sys.impactsIn b :=
  List.filterMap_append

theorem spikesIn_append (a b : List (Message F)) : Sys.spikesIn (a ++ b) = Sys.spikesIn a ++ Sys.spikesIn b :=
  List.filterMap_append

theorem body_gpu (l : List (Message F)) : (l.map gpuMessage).map (·.body) = l := by
  rw [List.map_map]
  exact List.map_id l

theorem body_impacts (l : List (SynapticImpactMessage F)) :
    (l.map (fun m => (⟨.impact m, false⟩ : GMsg F))).map (·.body) = l.map .impact := by
  rw [List.map_map]; rfl

theorem spikes_out (g : UID → Bool) (h0 : g 0 = false) : ∀ ss : List (Option SpikeMessage),
    (Sys.spikesIn ((ss.map (outMsg (F := F))).map (·.body))).filter (fun m => g m.header.senderUid) =
      (ss.filterMap id).filter (fun m => g m.header.senderUid) := by
  intro ss
  induction ss with
  | nil => rfl
  | cons s ss ih =>
    cases s with
    | some m =>
      have e : Sys.spikesIn (((some m :: ss).map (outMsg (F := F))).map (·.body)) =
        m :: Sys.spikesIn ((ss.map (outMsg (F := F))).map (·.body)) := rfl
      rw [e, List.filter_cons, ih, List.filterMap_cons]
      simp only [id, List.filter_cons]
    | none =>
      have e : Sys.spikesIn (((none :: ss).map (outMsg (F := F))).map (·.body)) =
        ⟨⟨0, 0⟩, []⟩ :: Sys.spikesIn ((ss.map (outMsg (F := F))).map (·.body)) := rfl
      rw [e, List.filter_cons, if_neg (by simp [h0]), ih, List.filterMap_cons]
      simp only [id]

theorem impacts_out (ss : List (Option SpikeMessage)) : Sys.impactsIn ((ss.map (outMsg (F := F))).map (·.body)) = [] := by
  induction ss with
  | nil => rfl
  | cons s ss ih =>
    cases s <;> exact ih

/-! ## One step -/

/-- The first half: up to the receiving of messages from the host. -/
theorem receive_spec {H : Hearing} {inputs : List (UID × UID)} {chans : Nat} {s : State F} {projs : List (Sys.ProjSt F)}
    {pending : List (SynapticImpactMessage F)} {e0 : Endpoint F} (hb : Btw H inputs chans s projs pending e0)
    (ht : s.step < two64) (env : List (Op F)) (hf : ∀ op ∈ env, Foreign chans op) (order : List Nat) :
    let sy := if s.step = 0 then syncWithHost order s.dev.subs e0 else (s.dev.subs, e0)
    let w1 := ((s.world.run env).onEndpoint 0 (fun _ => sendToHost s.step s.dev.msgs sy.2)).route.1
    (s.world.run env).endpoint 0 = some e0 ∧
    ∃ (e1 e2 : Endpoint F) (fetched : List SpikeMessage), w1.endpoint 0 = some e1 ∧
      receiveFromHost { s.dev with subs := sy.1 } e1 =
        ({ s.dev with subs := sy.1, msgs := pending.map (fun m => ⟨.impact m, false⟩) ++ (fetched.map Message.spike).map gpuMessage }, e2) ∧
      fetched.Perm (deviceArrivals inputs (extOf chans env)) ∧ Wired H inputs sy.1 e2 ∧
      Sys.Ready chans (w1.onEndpoint 0 (fun _ => e2)) e2 ∧ (∀ i, outboxOf (w1.onEndpoint 0 (fun _ => e2)) i = []) ∧
      (∀ i, 1 ≤ i → w1.endpoint i = ((s.world.run env).endpoint i).map
        (routed (pending.map .impact ++ extOf chans env))) := by
  intro sy w1
  obtain ⟨r1, _, r3⟩ := Sys.foreign_run env hb.ready hf
  have hw := hb.wired order
  change Wired H inputs sy.1 sy.2 at hw
  have hsend : sendToHost s.step s.dev.msgs sy.2 = { sy.2 with toSend := pending.map .impact } := by
    rw [sendToHost_eq, hw.quiet.toSend, hb.msgs, host_old ht pending hb.times, List.nil_append, body_impacts]
  -- the endpoint that sends
  generalize hes : ({ sy.2 with toSend := pending.map .impact } : Endpoint F) = es at *
  have hrecv : es.recv = [] := by rw [← hes]; exact hw.quiet.recv
  have hcov : Covered es := by rw [← hes]; exact hw.quiet.covered
  generalize hwa : (s.world.run env).onEndpoint 0 (fun _ => es) = wa at *
  have hep : ∀ i, wa.endpoint i = ((s.world.run env).endpoint i).map (if i = 0 then (fun _ => es) else id) := by
    intro i; rw [← hwa, endpoint_onEndpoint]
  have ra : Sys.Ready chans wa es := by
    refine ⟨by rw [← hwa]; exact r1.queue, by rw [← hwa, slots_length_onEndpoint, r1.len], ?_, ?_, hrecv, hcov⟩
    · intro i hi
      obtain ⟨e, he⟩ := r1.alive i hi
      rw [hep i, he]; exact ⟨_, rfl⟩
    · rw [hep 0, r1.ep]; rfl
  have hq : outbox wa = pending.map .impact ++ extOf chans env := by
    rw [Sys.outbox_split _ ra.len]
    congr 1
    · unfold outboxOf; rw [ra.ep, ← hes]; rfl
    · unfold extOf
      rw [List.flatMap_def, List.flatMap_def]
      congr 1
      apply List.map_congr_left
      intro i hi
      have hi' : i < chans := by simpa using hi
      have : outboxOf wa (i + 1) = outboxOf (s.world.run env) (i + 1) := by
        unfold outboxOf
        rw [hep (i + 1), if_neg (by omega)]
        cases (s.world.run env).endpoint (i + 1) <;> rfl
      rw [this, r3 (i + 1) (by omega), hb.empty (i + 1) (by omega), List.nil_append]
  obtain ⟨p1, p2, p3, p4, p5, p6⟩ := route_spec ra
  have hw1 : w1 = wa.route.1 := by rw [← hwa, ← hsend]
  rw [hw1]
  rw [hq] at p4 p6
  refine ⟨r1.ep, ?_⟩
  -- receiving
  have hrec : (routed (pending.map .impact ++ extOf chans env) es).receiveAll.1 =
      Sys.absorbed (pending.map .impact ++ extOf chans env) es := by
    obtain ⟨x1, _⟩ := Sys.exchange_spec ra
    rw [hq] at x1
    have h1 := x1.ep
    unfold Sys.exchange at h1
    rw [endpoint_onEndpoint, p4] at h1
    simpa using h1
  have hf1 := fetch_spec sy.1 (Sys.absorbed (pending.map .impact ++ extOf chans env) es) s.dev.msgs hw.keys
  obtain ⟨f1, f2, f3, f4, f5⟩ := hf1
  generalize he2 : (fetchLoop sy.1 (Sys.absorbed (pending.map .impact ++ extOf chans env) es) s.dev.msgs).1 = e2 at *
  -- what was stored
  have hhe : ∀ k r u, Sys.hearsE es k r u = Sys.hearsE sy.2 k r u := by rw [← hes]; intro k r u; rfl
  have hse : ∀ k r, Sys.storedE es k r = [] := by rw [← hes]; exact hw.quiet.stored
  have hstI : ∀ r, Sys.storedE (Sys.absorbed (pending.map .impact ++ extOf chans env) es) .impact r = [] := by
    intro r
    rw [(Sys.stored_exchange _ es r).1, hse]
    simp [hhe, hw.hI]
  have hstS : ∀ r, Sys.storedE (Sys.absorbed (pending.map .impact ++ extOf chans env) es) .spike r =
      ((Sys.spikesIn (extOf chans env)).filter (fun m => inputs.contains (r, m.header.senderUid))).map .spike := by
    intro r
    rw [(Sys.stored_exchange _ es r).2, hse, spikesIn_append, Sys.spikesIn_impacts]
    simp [hhe, hw.hS]
  have hstored : sy.1.flatMap (fun x => Sys.storedE (Sys.absorbed (pending.map .impact ++ extOf chans env) es) x.kind x.receiver) =
      (((sy.1.filter (fun s => s.kind == .spike)).map (·.receiver)).flatMap
        (fun r => (Sys.spikesIn (extOf chans env)).filter (fun m => inputs.contains (r, m.header.senderUid)))).map Message.spike := by
    rw [← fetched_eq]
    rw [List.flatMap_def, List.flatMap_def]
    congr 1
    apply List.map_congr_left
    intro x _
    cases x.kind with
    | spike => exact hstS _
    | impact => exact hstI _
  rw [hstored] at f1
  have hin : ∀ i ∈ inputs, i.1 ∈ (sy.1.filter (fun s => s.kind == .spike)).map (·.receiver) := by
    intro i hi
    have h1 := hb.hearIn i hi
    rw [← hw.dS] at h1
    unfold dhears at h1
    rw [List.any_eq_true] at h1
    obtain ⟨x, hx, hp⟩ := h1
    simp only [Bool.and_eq_true, beq_iff_eq] at hp
    exact List.mem_map.2 ⟨x, List.mem_filter.2 ⟨hx, by simp [hp.1.1]⟩, hp.1.2⟩
  have hperm := arrive_perm (receivers_nodup hw.keys) hin (Sys.spikesIn (extOf chans env))
  generalize ((sy.1.filter (fun s => s.kind == .spike)).map (·.receiver)).flatMap
        (fun r => (Sys.spikesIn (extOf chans env)).filter (fun m => inputs.contains (r, m.header.senderUid))) = fetched at *
  have hcovA : Covered (Sys.absorbed (pending.map .impact ++ extOf chans env) es) :=
    covered_map hcov (absorb (pending.map Message.impact ++ extOf chans env)) (fun s u hu => hu) es.recv []
  have hsen : (Sys.absorbed (pending.map .impact ++ extOf chans env) es).senders = sy.2.senders := by rw [← hes]; rfl
  have hw2 : Wired H inputs sy.1 e2 := by
    refine ⟨hw.keys, hw.dI, hw.dS, ?_, ?_, ?_, ⟨?_, ?_, f2.covered hcovA, ?_⟩⟩
    · intro r u; rw [f2.hears, Sys.hears_absorbed, hhe, hw.hI]
    · intro r u; rw [f2.hears, Sys.hears_absorbed, hhe, hw.hS]
    · intro u hu; rw [f4, hsen] at hu; exact hw.senders u hu
    · rw [f3]; rfl
    · rw [f2.recv]; exact hrecv
    · intro k r
      rw [f5]
      split
      · rfl
      · rename_i hnk
        cases k with
        | impact => exact hstI r
        | spike =>
          rw [hstS, List.map_eq_nil_iff, List.filter_eq_nil_iff]
          intro m _ hc
          rw [List.contains_iff_mem] at hc
          have := hin _ hc
          obtain ⟨x, hx, hr⟩ := List.mem_map.1 this
          obtain ⟨hx1, hx2⟩ := List.mem_filter.1 hx
          simp only [beq_iff_eq] at hx2
          exact hnk (List.mem_map.2 ⟨x, hx1, by unfold Sub.key; rw [hx2, hr]⟩)
  refine ⟨_, e2, fetched, p4, ?_, hperm, hw2, ?_, ?_, ?_⟩
  · unfold receiveFromHost
    simp only [hrec]
    rw [f1, he2, hb.msgs]
  · refine ⟨p1, by rw [slots_length_onEndpoint]; exact p2, ?_, ?_, hw2.quiet.recv, hw2.quiet.covered⟩
    · intro i hi
      obtain ⟨e, he⟩ := p3 i hi
      rw [endpoint_onEndpoint, he]; exact ⟨_, rfl⟩
    · rw [endpoint_onEndpoint, p4]; rfl
  · intro i
    unfold outboxOf
    rw [endpoint_onEndpoint]
    by_cases h0 : i = 0
    · rw [h0, p4]; simp [hw2.quiet.toSend]
    · have := p5 i
      unfold outboxOf at this
      rw [if_neg h0]
      cases hx : wa.route.1.endpoint i with
      | none => rfl
      | some e => rw [hx] at this; exact this
  · intro i hi
    rw [p6 i, hep i, if_neg (by omega)]
    cases (s.world.run env).endpoint i <;> rfl

theorem forall₂_map_left {α β γ : Type} {R : γ → β → Prop} (f : α → γ) : ∀ {l : List α} {l' : List β},
    List.Forall₂ (fun a b => R (f a) b) l l' → List.Forall₂ R (l.map f) l' := by
  intro l l' h
  induction h with
  | nil => exact List.Forall₂.nil
  | cons h _ ih => exact List.Forall₂.cons h ih

/-- The projections of a step. -/
theorem projs_step (t : Nat) : ∀ {dp : List (Proj F)} {sp : List (Sys.ProjSt F)}, List.Forall₂ Match dp sp →
    ∀ (h : Nat → Proj F → List SpikeMessage),
    let c := dp.mapIdx (fun i j => calcProj t j (h i j))
    (c.flatMap (fun j => (extract t j.queue).1.map (fun m => (⟨.impact m, false⟩ : GMsg F)))) =
      (sentImpacts t sp (dp.mapIdx h)).map (fun m => ⟨.impact m, false⟩) ∧
    List.Forall₂ Match (c.map (fun j => { j with queue := (extract t j.queue).2 })) (projsAfter t sp (dp.mapIdx h)) ∧
    (∀ m ∈ sentImpacts t sp (dp.mapIdx h), m.header.sendTime = t ∧ m.header.senderUid ∈ sp.map (·.ident.uid)) ∧
    (projsAfter t sp (dp.mapIdx h)).map (·.ident.uid) = sp.map (·.ident.uid) := by
  intro dp sp hm
  induction hm with
  | nil => intro h; exact ⟨rfl, List.Forall₂.nil, fun m hm => by simp [sentImpacts] at hm, rfl⟩
  | @cons dj sj dp sp hj _ ih =>
    intro h
    obtain ⟨a1, a2, a3⟩ := proj_match hj t (h 0 dj)
    obtain ⟨b1, b2, b3, b4⟩ := ih (fun i => h (i + 1))
    have hi : sentImpacts t (sj :: sp) ((dj :: dp).mapIdx h) =
        ((flowProj t sj (h 0 dj)).1.map (stamp t)).toList ++ sentImpacts t sp (dp.mapIdx (fun i => h (i + 1))) := by
      rw [List.mapIdx_cons]
      rfl
    have hp : projsAfter t (sj :: sp) ((dj :: dp).mapIdx h) =
        (flowProj t sj (h 0 dj)).2 :: projsAfter t sp (dp.mapIdx (fun i => h (i + 1))) := by
      rw [List.mapIdx_cons]
      rfl
    simp only at b1 b2 b3 b4 ⊢
    rw [hi, hp, List.mapIdx_cons]
    refine ⟨?_, List.Forall₂.cons a2 b2, ?_, ?_⟩
    · rw [List.flatMap_cons, List.map_append, a1, b1]
    · intro m hm
      rcases List.mem_append.1 hm with hm | hm
      · rw [Option.mem_toList, Option.map_eq_some_iff] at hm
        obtain ⟨x, hx, rfl⟩ := hm
        refine ⟨rfl, ?_⟩
        have := a3 x hx
        simp only [List.map_cons, List.mem_cons]
        exact .inl this
      · obtain ⟨c1, c2⟩ := b3 m hm
        exact ⟨c1, by simp [c2]⟩
    · rw [List.map_cons, List.map_cons, b4]
      rfl

theorem forall₂_length {α β : Type} {R : α → β → Prop} : ∀ {l : List α} {l' : List β}, List.Forall₂ R l l' → l.length = l'.length := by
  intro l l' h
  induction h with
  | nil => rfl
  | cons _ _ ih => simp [ih]

/-- From the projections on the device to those of the specification. -/
theorem heard_forall {dp : List (Proj F)} {sp : List (Sys.ProjSt F)} (hm : List.Forall₂ Match dp sp) (P : UID → List SpikeMessage → Prop) :
    ∀ (h : Nat → Proj F → List SpikeMessage), (∀ i, ∀ j ∈ dp, P j.ident.uid (h i j)) →
    List.Forall₂ (fun j x => P j.ident.uid x) sp (dp.mapIdx h) := by
  induction hm with
  | nil => intro h _; exact List.Forall₂.nil
  | @cons dj sj dp sp hj _ ih =>
    intro h hp
    rw [List.mapIdx_cons]
    refine List.Forall₂.cons ?_ (ih _ (fun i j hj' => hp (i + 1) j (by simp [hj'])))
    rw [← hj.uid]
    exact hp 0 dj (by simp)

/-- One step: what it does is possible, and what holds between steps holds after it.  It never throws, and it is undefined only if
the computation of a population is undefined with the messages it may be given. -/
theorem step_spec [Arith F] {H : Hearing} {inputs : List (UID × UID)} {chans : Nat} {s : State F} {projs : List (Sys.ProjSt F)}
    {pending : List (SynapticImpactMessage F)} {e0 : Endpoint F} (hb : Btw H inputs chans s projs pending e0)
    (ht : s.step < two64) (env : List (Op F)) (hf : ∀ op ∈ env, Foreign chans op) (sc : Sched) :
    match step sc { s with world := s.world.run env } with
    | .ok (s', o) => DevStep H inputs s.step s.dev.pops s'.dev.pops projs pending (extOf chans env) o ∧ s'.step = s.step + 1 ∧
        (∃ e', Btw H inputs chans s' (projsAfter s.step projs o.heard) (sentImpacts s.step projs o.heard) e') ∧
        (∀ i, 1 ≤ i → s'.world.endpoint i = ((s.world.run env).endpoint i).map
          (fun e => routed o.after (routed (o.before ++ extOf chans env) e)))
    | .throw _ => False
    | .ub => ∃ given, List.Forall₂ (fun p g => g.Perm (pending.filter (fun m => H.impact p.uid m.header.senderUid))) s.dev.pops given ∧
        computePops s.step s.dev.pops given = .ub := by
  obtain ⟨q0, e1, e2, fetched, q1, q2, q3, q4, q5, q6, q7⟩ := receive_spec hb ht env hf sc.sync
  unfold step
  simp only [q0]
  generalize hsy : (if s.step = 0 then syncWithHost sc.sync s.dev.subs e0 else (s.dev.subs, e0)) = sy at *
  generalize hw1 : ((s.world.run env).onEndpoint 0 (fun _ => sendToHost s.step s.dev.msgs sy.2)).route.1 = w1 at *
  rw [q1]
  simp only [q2]
  generalize hmsgs : pending.map (fun m => (⟨.impact m, false⟩ : GMsg F)) ++ (fetched.map Message.spike).map gpuMessage = msgs at *
  have hbody : msgs.map (·.body) = pending.map .impact ++ fetched.map .spike := by
    rw [← hmsgs, List.map_append, body_impacts, body_gpu]
  have hgiven : ∀ i r, (givenTo sc sy.1 msgs i r).Perm (pending.filter (fun m => H.impact r m.header.senderUid)) := by
    intro i r
    refine (given_perm q4.keys sc msgs i r).trans (List.Perm.of_eq ?_)
    rw [hbody, impactsIn_append, Sys.impactsIn_map, Sys.impactsIn_spikes, List.append_nil]
    simp only [q4.dI]
  have hgf : List.Forall₂ (fun (p : Pop F) g => g.Perm (pending.filter (fun m => H.impact p.uid m.header.senderUid))) s.dev.pops
      (s.dev.pops.mapIdx (fun i p => givenTo sc sy.1 msgs i p.uid)) :=
    forall₂_mapIdx _ _ _ (fun i p _ => hgiven i p.uid)
  have hk := popKernel_eq s.step (givenTo sc sy.1 msgs) s.dev.pops 0
  simp only [Nat.zero_add] at hk
  unfold calcPops
  simp only [hk]
  cases hc : computePops s.step s.dev.pops (s.dev.pops.mapIdx (fun i p => givenTo sc sy.1 msgs i p.uid)) with
  | throw w => exact (computePops_no_throw _ _ _ _ hc).elim
  | ub => exact ⟨_, hgf, hc⟩
  | ok r =>
    obtain ⟨ps, ss⟩ := r
    simp only
    obtain ⟨c1, c2⟩ := computePops_spec _ _ _ _ hc
    simp only at c1 c2
    -- the second route
    have hq2 : outbox (w1.onEndpoint 0 (fun _ => e2)) = [] := by
      rw [Sys.outbox_split _ q5.len, q6 0, List.nil_append, List.flatMap_eq_nil_iff]
      intro i _; exact q6 _
    obtain ⟨r1, r2, r3⟩ := route_quiet q5 (by rw [hq2]; intro m hm; simp at hm)
    rw [hq2] at r3
    generalize hw2 : (w1.onEndpoint 0 (fun _ => e2)).route.1 = w2 at *
    -- projections
    have hheard : ∀ i r, (heardBy sc sy.1 (msgs ++ ss.map outMsg) i r).Perm
        ((deviceArrivals inputs (extOf chans env) ++ ss.filterMap id).filter (fun m => H.spike r m.header.senderUid)) := by
      intro i r
      refine (heard_perm q4.keys sc (msgs ++ ss.map outMsg) i r).trans ?_
      rw [List.map_append, hbody, spikesIn_append, spikesIn_append, Sys.spikesIn_impacts, Sys.spikesIn_map, List.nil_append,
        List.filter_append, List.filter_append]
      simp only [q4.dS]
      rw [spikes_out (H.spike r) (hb.hear0 r)]
      exact (q3.filter _).append_right _
    have hhf := heard_forall hb.match_ (fun r x => x.Perm ((deviceArrivals inputs (extOf chans env) ++ ss.filterMap id).filter
      (fun m => H.spike r m.header.senderUid))) (fun i j => heardBy sc sy.1 (msgs ++ ss.map outMsg) i j.ident.uid)
      (fun i j _ => hheard i j.ident.uid)
    obtain ⟨j1, j2, j3, j4⟩ := projs_step s.step hb.match_ (fun i j => heardBy sc sy.1 (msgs ++ ss.map outMsg) i j.ident.uid)
    simp only at j1 j2 j3 j4
    generalize hhl : s.dev.projs.mapIdx (fun i j => heardBy sc sy.1 (msgs ++ ss.map outMsg) i j.ident.uid) = heard at *
    -- sending
    have hafter : ((msgs ++ ss.map outMsg).filter (goesToHost s.step)).map (fun m : GMsg F => m.body) =
        pending.map .impact ++ popsToHost s.step ss := by
      rw [List.filter_append, List.map_append, host_pops ht ss (fun m hm => (c2 m hm).1), ← hmsgs, List.filter_append,
        host_old ht pending hb.times, host_external, List.append_nil, body_impacts]
    have hbefore : (s.dev.msgs.filter (goesToHost s.step)).map (·.body) = pending.map .impact := by
      rw [hb.msgs, host_old ht pending hb.times, body_impacts]
    have hcp : calcProjs sc s.step (⟨ps, s.dev.projs, sy.1, msgs ++ ss.map outMsg⟩ : Device F) =
        ⟨ps, s.dev.projs.mapIdx (fun i j => calcProj s.step j (heardBy sc sy.1 (msgs ++ ss.map outMsg) i j.ident.uid)), sy.1,
          msgs ++ ss.map outMsg⟩ := rfl
    simp only [hcp, hafter, hbefore, sendToHost_eq]
    -- the third route
    have hset : w2.onEndpoint 0 (fun e => { e with toSend := e.toSend ++ (pending.map Message.impact ++ popsToHost s.step ss) }) =
        w2.onEndpoint 0 (fun _ => { e2 with toSend := pending.map .impact ++ popsToHost s.step ss }) := by
      have h0 := r1.ep
      unfold World.endpoint at h0
      unfold World.onEndpoint
      congr 1
      cases hsl : w2.slots with
      | nil => rw [hsl] at h0; cases h0
      | cons a l =>
        rw [hsl] at h0
        simp only [List.getElem?_cons_zero] at h0
        simp only [List.modify_zero_cons]
        congr 1
        split
        · rename_i ha
          rw [if_pos ha] at h0
          simp only [Option.some.injEq] at h0
          rw [h0]
          simp
        · rfl
    rw [hset]
    obtain ⟨s1, s2, s3⟩ := Sys.ready_set r1 (e1 := { e2 with toSend := pending.map .impact ++ popsToHost s.step ss })
      (same_toSend { e2 with toSend := [] } _)
    have hq3 : outbox (w2.onEndpoint 0 (fun _ => { e2 with toSend := pending.map .impact ++ popsToHost s.step ss })) =
        pending.map .impact ++ popsToHost s.step ss := by
      rw [Sys.outbox_split _ s1.len, s2]
      have : (List.range chans).flatMap (fun i => outboxOf (w2.onEndpoint 0
          (fun _ => { e2 with toSend := pending.map .impact ++ popsToHost s.step ss })) (i + 1)) = [] := by
        rw [List.flatMap_eq_nil_iff]
        intro i _
        rw [s3 (i + 1) (by omega), r2]
      rw [this, List.append_nil]
    have hown : ∀ m ∈ pending.map Message.impact ++ popsToHost s.step ss, m.sender ∉ e2.senders := by
      intro m hm hs
      have hin := q4.senders _ hs
      obtain ⟨i, hi, hiu⟩ := List.mem_map.1 hin
      obtain ⟨ap1, ap2, ap3⟩ := hb.apart i hi
      rcases List.mem_append.1 hm with hm | hm
      · obtain ⟨x, hx, rfl⟩ := List.mem_map.1 hm
        refine ap3 ?_
        rw [hiu]; exact hb.from_ x hx
      · unfold popsToHost at hm
        obtain ⟨x, hx, hxm⟩ := List.mem_filterMap.1 hm
        cases x with
        | some y =>
          simp only [Option.some.injEq] at hxm
          refine ap2 ?_
          rw [hiu, ← hxm]
          exact (c2 y hx).2
        | none =>
          simp only at hxm
          split at hxm
          · simp only [Option.some.injEq] at hxm
            refine ap1 ?_
            rw [hiu, ← hxm]; rfl
          · cases hxm
    obtain ⟨t1, t2, t3⟩ := route_quiet s1 (by rw [hq3]; exact hown)
    rw [hq3] at t3
    generalize hw3 : (w2.onEndpoint 0 (fun _ => { e2 with toSend := pending.map .impact ++ popsToHost s.step ss })).route.1 = w3 at *
    have hee : ({ ({ e2 with toSend := pending.map Message.impact ++ popsToHost s.step ss } : Endpoint F) with toSend := [] }) = e2 := by
      rw [← q4.quiet.toSend]
    rw [hee] at t1
    refine ⟨⟨hgf, hc, hhf, rfl, rfl⟩, trivial, ⟨e2, ⟨t1, fun i _ => t2 i, ?_, ?_, ?_, ?_, ?_, hb.hearIn, hb.hear0, ?_⟩⟩, ?_⟩
    · intro order
      rw [if_neg (by simp)]
      exact q4
    · exact j1
    · intro m hm
      rw [(j3 m hm).1]
    · intro m hm
      rw [j4]; exact (j3 m hm).2
    · exact j2
    · intro i hi
      have := hb.apart i hi
      refine ⟨this.1, ?_, ?_⟩
      · show i.2 ∉ ps.map (·.uid)
        rw [c1]; exact this.2.1
      · rw [j4]; exact this.2.2
    · intro i hi
      rw [t3 i, endpoint_onEndpoint, if_neg (by omega), r3 i, endpoint_onEndpoint, if_neg (by omega), q7 i hi]
      cases (s.world.run env).endpoint i with
      | none => rfl
      | some e =>
        simp only [Option.map_some, id]
        congr 1
        unfold routed
        simp

/-! ## A new backend -/

theorem make_eq (d : Delta.Ident) {synapses : List (Delta.Syn F)} (h : Fits synapses) : Proj.make d synapses = ⟨d, synapses, []⟩ := by
  unfold Proj.make
  congr 1
  conv => rhs; rw [← List.map_id synapses]
  apply List.map_congr_left
  intro s hs
  obtain ⟨h1, h2⟩ := h s hs
  rw [Nat.mod_eq_of_lt h1, Nat.mod_eq_of_lt h2]
  rfl

theorem inputs_more (inputs : List (UID × UID)) : ∀ e : Endpoint F, (e.subs.map ekey).Nodup →
    ((inputs.foldl (fun e i => e.subscribe .spike i.1 [i.2]) e).subs.map ekey).Nodup ∧
    (∀ u, u ∈ (inputs.foldl (fun e i => e.subscribe .spike i.1 [i.2]) e).senders → u ∈ e.senders ∨ u ∈ inputs.map (·.2)) := by
  induction inputs with
  | nil => intro e h; exact ⟨h, fun u hu => .inl hu⟩
  | cons i is ih =>
    intro e h
    obtain ⟨h1, h2⟩ := ih _ (ekeys_subscribe h .spike i.1 [i.2])
    refine ⟨h1, fun u hu => ?_⟩
    rw [List.foldl_cons] at hu
    rcases h2 u hu with h3 | h3
    · rw [senders_subscribe, mem_setInsertAll] at h3
      rcases h3 with h3 | h3
      · exact .inl h3
      · right; simp only [List.mem_singleton] at h3; simp [h3]
    · right; simp [h3]

theorem create_world (inputs : List (UID × UID)) (chans : Nat) : (create (F := F) inputs chans).world =
    ⟨⟨true, inputs.foldl (fun e i => e.subscribe .spike i.1 [i.2]) Endpoint.fresh⟩ :: List.replicate chans ⟨true, .fresh⟩, []⟩ := by
  unfold create
  simp only
  rw [Sys.run_create, Sys.run_subscribe]
  simp only [World.init, List.nil_append, List.replicate_succ, World.onEndpoint, List.modify_zero_cons]
  rfl

theorem create_ready (inputs : List (UID × UID)) (chans : Nat) :
    Sys.Ready chans (create (F := F) inputs chans).world
      (inputs.foldl (fun e i => e.subscribe .spike i.1 [i.2]) Endpoint.fresh) ∧
    ∀ i, i ≤ chans → outboxOf (create (F := F) inputs chans).world i = [] := by
  obtain ⟨i1, i2, i3⟩ := Sys.inputs_spec inputs Endpoint.fresh (Sys.quiet_fresh (F := F))
  generalize he : inputs.foldl (fun (e : Endpoint F) i => e.subscribe .spike i.1 [i.2]) Endpoint.fresh = e0 at *
  have hep : ∀ i, (create (F := F) inputs chans).world.endpoint (i + 1) = if i < chans then some .fresh else none := by
    intro i
    rw [create_world]
    unfold World.endpoint
    simp only [List.getElem?_cons_succ, List.getElem?_replicate]
    by_cases h : i < chans
    · simp [h]
    · simp [h]
  have hep0 : (create (F := F) inputs chans).world.endpoint 0 = some e0 := by rw [create_world, he]; rfl
  refine ⟨⟨by rw [create_world], by rw [create_world]; simp, ?_, hep0, i1.recv, i1.covered⟩, ?_⟩
  · intro i hi
    cases i with
    | zero => exact ⟨_, hep0⟩
    | succ i => rw [hep, if_pos (by omega)]; exact ⟨_, rfl⟩
  · intro i hi
    unfold outboxOf
    cases i with
    | zero => rw [hep0]; exact i1.toSend
    | succ i => rw [hep]; split <;> rfl

theorem boot_btw (pops : List (Pop F)) (projs : List (Delta.Ident × List (Delta.Syn F))) (inputs : List (UID × UID)) (chans : Nat)
    (ha : Apart pops projs inputs) (hfit : ∀ j ∈ projs, Fits j.2) :
    ∃ e0, Btw (hearing projs inputs) inputs chans (boot pops projs inputs chans) (projs.map cpuProj) [] e0 := by
  obtain ⟨r1, r2⟩ := create_ready (F := F) inputs chans
  obtain ⟨i1, i2, i3⟩ := Sys.inputs_spec inputs Endpoint.fresh (Sys.quiet_fresh (F := F))
  obtain ⟨m1, m2⟩ := inputs_more inputs (Endpoint.fresh : Endpoint F) (by simp [Endpoint.fresh])
  generalize he : inputs.foldl (fun (e : Endpoint F) i => e.subscribe .spike i.1 [i.2]) Endpoint.fresh = e0 at *
  have hw : (boot pops projs inputs chans).world = (create (F := F) inputs chans).world := rfl
  have hst : (boot pops projs inputs chans).step = 0 := rfl
  have hdp : (boot pops projs inputs chans).dev.projs = projs.map (fun j => Proj.make j.1 j.2) := rfl
  have hsu : (boot pops projs inputs chans).dev.subs = initSubs (projs.map (fun j => Proj.make j.1 j.2)) [] := rfl
  have hmk : projs.map (fun j => Proj.make j.1 j.2) = projs.map (fun j => (⟨j.1, j.2, []⟩ : Proj F)) :=
    List.map_congr_left (fun j hj => make_eq j.1 (hfit j hj))
  obtain ⟨w1, w2, w3⟩ := initSubs_spec (projs.map (fun j => Proj.make j.1 j.2)) [] (by simp)
  have hfr : ∀ k r s, Sys.hearsE (Endpoint.fresh : Endpoint F) k r s = false := fun _ _ _ => rfl
  have hd0 : ∀ k r s, dhears [] k r s = false := fun _ _ _ => rfl
  have hany : ∀ p : Delta.Ident → Bool, (projs.map (fun j => Proj.make j.1 j.2)).any (fun j => p j.ident) =
      (projs.map (fun j => (j.1, ascending j.2))).any (fun j => p j.1) := by
    intro p; rw [List.any_map, List.any_map]; rfl
  refine ⟨e0, ⟨by rw [hw]; exact r1, by rw [hw]; exact r2, ?_, rfl, fun m hm => by simp at hm, fun m hm => by simp at hm, ?_, ?_, ?_, ?_⟩⟩
  · intro order
    rw [hst, if_pos rfl, hsu]
    obtain ⟨s1, s2, s3, s4, s5, s6⟩ := sync_spec order w1 i1 m1
    refine ⟨s1, ?_, ?_, ?_, ?_, ?_, s2⟩
    · intro r s
      rw [s5, w2, i2, hfr, hd0, hany (fun d => d.post == r && d.uid == s)]
      simp [hearing, hearingOf]
    · intro r s
      rw [s5, w3, i3, hfr, hd0, hany (fun d => d.uid == r && d.pre == s)]
      simp [hearing, hearingOf]
    · intro r s; rw [s4, i2, hfr]
    · intro r s; rw [s4, i3, hfr, Bool.false_or]
    · intro u hu
      rw [s6] at hu
      rcases m2 u hu with h | h
      · simp [Endpoint.fresh] at h
      · exact h
  · rw [hdp, hmk]
    clear hany hmk hdp hsu w1 w2 w3 ha hfit hw hst
    induction projs with
    | nil => exact List.Forall₂.nil
    | cons j js ih =>
      rw [List.map_cons, List.map_cons]
      exact List.Forall₂.cons ⟨rfl, rfl, rfl, rfl, rfl, rfl, by simp [cpuProj], fun e he => by simp [cpuProj] at he⟩ ih
  · intro i hi
    unfold hearing hearingOf
    simp only [Bool.or_eq_true]
    exact .inr (by simpa using hi)
  · intro r
    unfold hearing hearingOf
    simp only [ne_eq, not_true_eq_false, decide_false, Bool.false_and, Bool.false_or]
    rw [Bool.eq_false_iff]
    intro h
    rw [List.contains_iff_mem] at h
    exact (ha _ h).1 rfl
  · intro i hi
    obtain ⟨a, b, c⟩ := ha i hi
    refine ⟨a, b, ?_⟩
    rw [List.map_map]
    exact c

/-! ## Runs -/

/-- A run: what it does is possible. -/
theorem run_spec [Arith F] {H : Hearing} {inputs : List (UID × UID)} {chans : Nat} (envs : List (List (Op F) × Sched)) :
    ∀ (s : State F) (projs : List (Sys.ProjSt F)) (pending : List (SynapticImpactMessage F)) (e0 : Endpoint F),
    Btw H inputs chans s projs pending e0 → s.step + envs.length ≤ two64 → (∀ x ∈ envs, ∀ op ∈ x.1, Foreign chans op) →
    (∀ w, run s envs ≠ .throw w) ∧
    ∀ s' os, run s envs = .ok (s', os) → ∃ projs', (∃ pending' e', Btw H inputs chans s' projs' pending' e') ∧
      s'.step = s.step + envs.length ∧
      DevRun H inputs s.step s.dev.pops projs pending (envs.map (fun x => extOf chans x.1)) os (s'.dev.pops, projs') := by
  induction envs with
  | nil =>
    intro s projs pending e0 hb _ _
    refine ⟨fun w h => (by cases h), ?_⟩
    intro s' os h
    simp only [run, Outcome.ok.injEq, Prod.mk.injEq] at h
    rw [← h.1, ← h.2]
    exact ⟨projs, ⟨pending, e0, hb⟩, rfl, rfl, rfl⟩
  | cons x envs ih =>
    intro s projs pending e0 hb hle hf
    obtain ⟨env, sc⟩ := x
    rw [List.length_cons] at hle
    have hs := step_spec hb (by omega) env (hf (env, sc) (by simp)) sc
    cases h1 : step sc { s with world := s.world.run env } with
    | throw w => rw [h1] at hs; exact hs.elim
    | ub =>
      refine ⟨fun w h => ?_, fun s' os h => ?_⟩ <;> (unfold run at h; rw [h1] at h; cases h)
    | ok r =>
      obtain ⟨s1, o⟩ := r
      rw [h1] at hs
      simp only at hs
      obtain ⟨a1, a2, ⟨e', a3⟩, _⟩ := hs
      obtain ⟨b1, b2⟩ := ih s1 _ _ e' a3 (by rw [a2]; omega) (fun y hy => hf y (by simp [hy]))
      refine ⟨fun w h => ?_, fun s' os h => ?_⟩
      · unfold run at h
        rw [h1] at h
        simp only at h
        cases h2 : run s1 envs with
        | throw w => exact b1 w h2
        | ub => rw [h2] at h; cases h
        | ok q => rw [h2] at h; cases h
      · unfold run at h
        rw [h1] at h
        simp only at h
        cases h2 : run s1 envs with
        | throw w => rw [h2] at h; cases h
        | ub => rw [h2] at h; cases h
        | ok q =>
          obtain ⟨s2, os2⟩ := q
          rw [h2] at h
          simp only [Outcome.ok.injEq, Prod.mk.injEq] at h
          obtain ⟨projs', c1, c2, c3⟩ := b2 s2 os2 h2
          rw [← h.1, ← h.2]
          refine ⟨projs', c1, by rw [c2, a2, List.length_cons]; omega, ?_⟩
          rw [List.map_cons]
          refine ⟨o, os2, s1.dev.pops, rfl, a1, ?_⟩
          rw [a2] at c3
          exact c3

end Knp.Cuda
