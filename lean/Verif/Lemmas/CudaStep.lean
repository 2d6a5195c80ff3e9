import Verif.Lemmas.Cuda

/-! # Lemmas: parts of a step of the CUDA backend -/

namespace Knp.Cuda
open Knp Knp.Bus Knp.Spec Knp.Neurons

variable {F : Type}

/-! ## Messages from the host -/

theorem senders_unload (e : Endpoint F) (k : MsgKind) (r : UID) : (e.unload k r).1.senders = e.senders := by
  unfold Endpoint.unload
  cases e.findSub k r <;> rfl

theorem fetch_spec (subs : List Sub) : ∀ (e : Endpoint F) (acc : List (GMsg F)), (subs.map Sub.key).Nodup →
    (fetchLoop subs e acc).2 = acc ++ (subs.flatMap (fun s => Sys.storedE e s.kind s.receiver)).map gpuMessage ∧
    Sys.Same e (fetchLoop subs e acc).1 ∧ (fetchLoop subs e acc).1.toSend = e.toSend ∧
    (fetchLoop subs e acc).1.senders = e.senders ∧
    (∀ k r, Sys.storedE (fetchLoop subs e acc).1 k r = if (k, r) ∈ subs.map Sub.key then [] else Sys.storedE e k r) := by
  induction subs with
  | nil => intro e acc _; exact ⟨by simp [fetchLoop], Sys.Same.refl e, rfl, rfl, fun _ _ => by simp [fetchLoop]⟩
  | cons s subs ih =>
    intro e acc hn
    rw [List.map_cons, List.nodup_cons] at hn
    obtain ⟨h1, h2, h3, h4, h5⟩ := ih (e.unload s.kind s.receiver).1 (acc ++ (e.unload s.kind s.receiver).2.map gpuMessage) hn.2
    unfold fetchLoop
    simp only
    refine ⟨?_, (Sys.same_unload e _ _).trans h2, h3.trans (Sys.unload_fields e _ _).1, h4.trans (senders_unload e _ _), ?_⟩
    · rw [h1, List.flatMap_cons, List.map_append, List.append_assoc, Sys.unload_snd]
      congr 2
      rw [List.flatMap_def, List.flatMap_def]
      congr 2
      apply List.map_congr_left
      intro x hx
      rw [Sys.stored_unload, if_neg]
      rintro ⟨a, b⟩
      exact hn.1 (List.mem_map.2 ⟨x, hx, by unfold Sub.key; rw [a, b]⟩)
    · intro k r
      rw [h5, Sys.stored_unload]
      by_cases hk : (k, r) ∈ subs.map Sub.key
      · simp [hk]
      · by_cases hs : s.kind = k ∧ s.receiver = r
        · have : (k, r) = s.key := by unfold Sub.key; rw [hs.1, hs.2]
          rw [if_neg hk, if_pos hs, if_pos (by rw [this]; simp)]
        · rw [if_neg hk, if_neg hs, if_neg]
          simp only [List.map_cons, List.mem_cons, not_or]
          refine ⟨?_, hk⟩
          intro h
          exact hs ⟨(congrArg Prod.fst h).symm, (congrArg Prod.snd h).symm⟩

theorem flatMap_filter_cons {α β : Type} (R : List α) (p : α → β → Bool) (m : β) (ms : List β) :
    (R.flatMap (fun r => (m :: ms).filter (p r))).Perm
      ((R.filter (fun r => p r m)).map (fun _ => m) ++ R.flatMap (fun r => ms.filter (p r))) := by
  induction R with
  | nil => simp
  | cons a R ih =>
    rw [List.flatMap_cons, List.flatMap_cons, List.filter_cons, List.filter_cons]
    by_cases h : p a m = true
    · rw [if_pos h, if_pos h, List.map_cons, List.cons_append, List.cons_append]
      refine List.Perm.cons m ?_
      refine (ih.append_left _).trans ?_
      rw [← List.append_assoc, ← List.append_assoc]
      exact List.perm_append_comm.append_right _
    · rw [if_neg h, if_neg h]
      refine (ih.append_left _).trans ?_
      rw [← List.append_assoc, ← List.append_assoc]
      exact List.perm_append_comm.append_right _

theorem fanout_eq {R : List UID} (hR : R.Nodup) {inputs : List (UID × UID)} (hin : ∀ i ∈ inputs, i.1 ∈ R) (c : UID) :
    (R.filter (fun r => inputs.contains (r, c))).length = fanout inputs c := by
  unfold fanout
  apply List.Perm.length_eq
  rw [List.perm_ext_iff_of_nodup (hR.filter _) (List.nodup_dedup _)]
  intro r
  simp only [List.mem_filter, List.contains_iff_mem, List.mem_dedup, List.mem_map, beq_iff_eq]
  constructor
  · rintro ⟨_, h⟩; exact ⟨(r, c), ⟨h, rfl⟩, rfl⟩
  · rintro ⟨⟨a, b⟩, ⟨h, rfl⟩, rfl⟩; exact ⟨hin _ h, h⟩

theorem arrive_perm {R : List UID} (hR : R.Nodup) {inputs : List (UID × UID)} (hin : ∀ i ∈ inputs, i.1 ∈ R)
    (ms : List SpikeMessage) : (R.flatMap (fun r => ms.filter (fun m => inputs.contains (r, m.header.senderUid)))).Perm
      (ms.flatMap (fun m => List.replicate (fanout inputs m.header.senderUid) m)) := by
  induction ms with
  | nil => simp
  | cons m ms ih =>
    refine (flatMap_filter_cons R (fun r m => inputs.contains (r, m.header.senderUid)) m ms).trans ?_
    rw [List.flatMap_cons]
    have : (R.filter (fun r => inputs.contains (r, m.header.senderUid))).map (fun _ => m) =
        List.replicate (fanout inputs m.header.senderUid) m := by
      rw [List.map_const', fanout_eq hR hin]
    rw [this]
    exact ih.append_left _

theorem fetched_eq (subs : List Sub) (f : UID → List SpikeMessage) :
    subs.flatMap (fun s => match s.kind with
      | .spike => (f s.receiver).map (Message.spike (F := F))
      | .impact => []) = (((subs.filter (fun s => s.kind == .spike)).map (·.receiver)).flatMap f).map Message.spike := by
  induction subs with
  | nil => rfl
  | cons s subs ih =>
    rw [List.flatMap_cons, ih, List.filter_cons]
    cases hk : s.kind with
    | spike => simp
    | impact => simp

theorem receivers_nodup {subs : List Sub} (hn : (subs.map Sub.key).Nodup) :
    ((subs.filter (fun s => s.kind == .spike)).map (·.receiver)).Nodup := by
  induction subs with
  | nil => simp
  | cons s subs ih =>
    rw [List.map_cons, List.nodup_cons] at hn
    rw [List.filter_cons]
    split
    · rename_i hs
      rw [List.map_cons, List.nodup_cons]
      refine ⟨?_, ih hn.2⟩
      intro h
      obtain ⟨x, hx, hr⟩ := List.mem_map.1 h
      obtain ⟨hx1, hx2⟩ := List.mem_filter.1 hx
      simp only [beq_iff_eq] at hs hx2
      exact hn.1 (List.mem_map.2 ⟨x, hx1, by unfold Sub.key; rw [hr, hx2, hs]⟩)
    · exact ih hn.2

/-! ## Projections -/

/-- A projection on the device and the one on the CPU it behaves like. -/
structure Match (dj : Proj F) (sj : Sys.ProjSt F) : Prop where
  uid : dj.ident.uid = sj.ident.uid
  pre : dj.ident.pre = sj.ident.pre
  post : dj.ident.post = sj.ident.post
  forced : sj.ident.forced = true
  proj : sj.proj = ascending dj.synapses
  queue : dj.queue = sj.queue.map (fun e => stamp e.1 e.2)
  keys : (sj.queue.map (·.1)).Nodup
  senders : ∀ e ∈ sj.queue, e.2.header.senderUid = sj.ident.uid

theorem push_match {d : Delta.Ident} {sd : Delta.Ident} (h1 : d.uid = sd.uid) (h2 : d.pre = sd.pre) (h3 : d.post = sd.post)
    (h4 : sd.forced = true) (step key : Nat) (imp : SynapticImpact F) : ∀ q : Delta.Queue F,
    pushImpact d key imp (q.map (fun e => stamp e.1 e.2)) = (Delta.qPush (Delta.mkSingle sd step) key imp q).map (fun e => stamp e.1 e.2) := by
  intro q
  induction q with
  | nil =>
    simp only [List.map_nil, pushImpact, Delta.qPush, List.map_cons, Delta.mkSingle, stamp, h1, h2, h3, h4]
  | cons e q ih =>
    obtain ⟨k, m⟩ := e
    rw [List.map_cons]
    unfold pushImpact Delta.qPush
    by_cases hk : k = key
    · rw [if_pos hk, if_pos (by simpa [stamp] using hk)]
      simp [stamp]
    · rw [if_neg hk, if_neg (by simpa [stamp] using hk), List.map_cons, ih]

theorem push_keys (mk : SynapticImpact F → SynapticImpactMessage F) (key : Nat) (imp : SynapticImpact F) : ∀ q : Delta.Queue F,
    (∀ k, k ∈ (Delta.qPush mk key imp q).map (·.1) ↔ k = key ∨ k ∈ q.map (·.1)) ∧
    ((q.map (·.1)).Nodup → ((Delta.qPush mk key imp q).map (·.1)).Nodup) := by
  intro q
  induction q with
  | nil => exact ⟨fun k => by simp [Delta.qPush], fun _ => by simp [Delta.qPush]⟩
  | cons e q ih =>
    obtain ⟨k0, m⟩ := e
    unfold Delta.qPush
    by_cases hk : k0 = key
    · rw [if_pos hk]
      refine ⟨fun k => ?_, fun h => by simpa using h⟩
      simp only [List.map_cons, List.mem_cons, hk]
      tauto
    · rw [if_neg hk]
      refine ⟨fun k => ?_, fun h => ?_⟩
      · rw [List.map_cons, List.mem_cons, ih.1, List.map_cons, List.mem_cons]; tauto
      · rw [List.map_cons, List.nodup_cons] at h ⊢
        refine ⟨?_, ih.2 h.2⟩
        rw [ih.1]
        rintro (h' | h')
        · exact hk h'
        · exact h.1 h'

theorem push_senders (sd : Delta.Ident) (step key : Nat) (imp : SynapticImpact F) : ∀ q : Delta.Queue F,
    (∀ e ∈ q, e.2.header.senderUid = sd.uid) →
    ∀ e ∈ Delta.qPush (Delta.mkSingle sd step) key imp q, e.2.header.senderUid = sd.uid := by
  intro q
  induction q with
  | nil =>
    intro _ e he
    simp only [Delta.qPush, List.mem_singleton] at he
    rw [he]; rfl
  | cons a q ih =>
    intro h e he
    obtain ⟨k, m⟩ := a
    unfold Delta.qPush at he
    split at he
    · rcases List.mem_cons.1 he with rfl | he
      · exact h (k, m) (by simp)
      · exact h e (by simp [he])
    · rcases List.mem_cons.1 he with rfl | he
      · exact h _ (by simp)
      · exact ih (fun x hx => h x (by simp [hx])) e he

theorem foldl_filter_map {α β γ : Type} (p : α → Bool) (g : α → β) (f : γ → β → γ) (l : List α) : ∀ q : γ,
    ((l.filter p).map g).foldl f q = l.foldl (fun q s => if p s then f q (g s) else q) q := by
  induction l with
  | nil => intro q; rfl
  | cons a l ih =>
    intro q
    rw [List.filter_cons, List.foldl_cons]
    split
    · rw [List.map_cons, List.foldl_cons, ih]
    · rw [ih]

/-- The synapse loop keeps the correspondence; `P` collects what is kept. -/
theorem spike_match {d sd : Delta.Ident} (h1 : d.uid = sd.uid) (h2 : d.pre = sd.pre) (h3 : d.post = sd.post)
    (h4 : sd.forced = true) (synapses : List (Delta.Syn F)) (step n : Nat) (q : Delta.Queue F) (hk : (q.map (·.1)).Nodup)
    (hs : ∀ e ∈ q, e.2.header.senderUid = sd.uid) :
    pushSpike d synapses step (q.map (fun e => stamp e.1 e.2)) n =
      (Delta.pushSpike sd (ascending synapses) step q n).map (fun e => stamp e.1 e.2) ∧
    ((Delta.pushSpike sd (ascending synapses) step q n).map (·.1)).Nodup ∧
    (∀ e ∈ Delta.pushSpike sd (ascending synapses) step q n, e.2.header.senderUid = sd.uid) := by
  unfold pushSpike Delta.pushSpike
  have hfind : (ascending synapses).find n = (synapses.zipIdx.filter (fun s => s.1.source == n)).map (·.2) := rfl
  have hsy : (ascending synapses).synapses = synapses := rfl
  rw [hfind, foldl_filter_map, hsy]
  have hmem : ∀ x ∈ synapses.zipIdx, synapses[x.2]? = some x.1 := by
    intro x hx
    rw [List.mem_zipIdx_iff_getElem?] at hx
    exact hx
  generalize synapses.zipIdx = l at hmem
  induction l generalizing q with
  | nil => exact ⟨rfl, hk, hs⟩
  | cons a l ih =>
    rw [List.foldl_cons, List.foldl_cons]
    by_cases ha : a.1.source = n
    · rw [if_neg (by simpa using ha), if_pos (by simpa using ha)]
      rw [hmem a (by simp)]
      simp only
      rw [push_match h1 h2 h3 h4 step]
      exact ih _ ((push_keys _ _ _ q).2 hk) (push_senders sd step _ _ q hs) (fun x hx => hmem x (by simp [hx]))
    · rw [if_pos (by simpa using ha), if_neg (by simpa using ha)]
      exact ih _ hk hs (fun x hx => hmem x (by simp [hx]))

theorem calc_match {d sd : Delta.Ident} (h1 : d.uid = sd.uid) (h2 : d.pre = sd.pre) (h3 : d.post = sd.post)
    (h4 : sd.forced = true) (synapses : List (Delta.Syn F)) (step : Nat) (msgs : List SpikeMessage) : ∀ (q : Delta.Queue F),
    (q.map (·.1)).Nodup → (∀ e ∈ q, e.2.header.senderUid = sd.uid) →
    msgs.foldl (fun q m => m.neuronIndexes.foldl (pushSpike d synapses step) q) (q.map (fun e => stamp e.1 e.2)) =
      (Delta.calcSingle sd (ascending synapses) step q msgs).map (fun e => stamp e.1 e.2) ∧
    ((Delta.calcSingle sd (ascending synapses) step q msgs).map (·.1)).Nodup ∧
    (∀ e ∈ Delta.calcSingle sd (ascending synapses) step q msgs, e.2.header.senderUid = sd.uid) := by
  unfold Delta.calcSingle
  have inner : ∀ (ns : List Nat) (q : Delta.Queue F), (q.map (·.1)).Nodup → (∀ e ∈ q, e.2.header.senderUid = sd.uid) →
      ns.foldl (pushSpike d synapses step) (q.map (fun e => stamp e.1 e.2)) =
        (ns.foldl (Delta.pushSpike sd (ascending synapses) step) q).map (fun e => stamp e.1 e.2) ∧
      ((ns.foldl (Delta.pushSpike sd (ascending synapses) step) q).map (·.1)).Nodup ∧
      (∀ e ∈ ns.foldl (Delta.pushSpike sd (ascending synapses) step) q, e.2.header.senderUid = sd.uid) := by
    intro ns
    induction ns with
    | nil => intro q hk hs; exact ⟨rfl, hk, hs⟩
    | cons n ns ih =>
      intro q hk hs
      obtain ⟨a, b, c⟩ := spike_match h1 h2 h3 h4 synapses step n q hk hs
      rw [List.foldl_cons, List.foldl_cons, a]
      exact ih _ b c
  induction msgs with
  | nil => intro q hk hs; exact ⟨rfl, hk, hs⟩
  | cons m msgs ih =>
    intro q hk hs
    obtain ⟨a, b, c⟩ := inner m.neuronIndexes q hk hs
    rw [List.foldl_cons, List.foldl_cons, a]
    exact ih _ b c

theorem extract_absent (t : Nat) : ∀ q : List (SynapticImpactMessage F), (∀ m ∈ q, m.header.sendTime ≠ t) →
    extract t q = ([], q)
  | [], _ => rfl
  | [m], h => by
    have := h m (by simp)
    simp [extract, this]
  | m :: m' :: q, h => by
    have := h m (by simp)
    have ih := extract_absent t (m' :: q) (fun x hx => h x (by simp only [List.mem_cons] at hx ⊢; exact .inr hx))
    unfold extract
    rw [if_neg this, ih]

theorem extract_queue (t : Nat) : ∀ q : Delta.Queue F, (q.map (·.1)).Nodup →
    extract t (q.map (fun e => stamp e.1 e.2)) =
      (((Delta.qFind q t).map (stamp t)).toList, (Delta.qErase q t).map (fun e => stamp e.1 e.2)) := by
  intro q
  induction q with
  | nil => intro _; rfl
  | cons e q ih =>
    intro h
    obtain ⟨k, m⟩ := e
    rw [List.map_cons, List.nodup_cons] at h
    by_cases hk : k = t
    · have habs : ∀ x ∈ q.map (fun e => stamp e.1 e.2), x.header.sendTime ≠ t := by
        intro x hx
        obtain ⟨e, he, rfl⟩ := List.mem_map.1 hx
        intro h'
        exact h.1 (List.mem_map.2 ⟨e, he, by show e.1 = k; rw [hk]; exact h'⟩)
      have hf : Delta.qFind ((k, m) :: q) t = some m := by simp [Delta.qFind, hk]
      have he : Delta.qErase ((k, m) :: q) t = q := by
        unfold Delta.qErase
        rw [List.filter_cons, if_neg (by simp [hk]), List.filter_eq_self]
        intro e he
        have : e.1 ≠ t := by
          intro h'
          exact h.1 (List.mem_map.2 ⟨e, he, by show e.1 = k; rw [h', hk]⟩)
        simpa using this
      rw [hf, he, List.map_cons]
      generalize q.map (fun e => stamp e.1 e.2) = rest at habs
      have hst : (stamp k m).header.sendTime = t := hk
      cases rest with
      | nil => unfold extract; rw [if_pos hst, hk]; rfl
      | cons x rest =>
        unfold extract
        rw [if_pos hst, extract_absent t rest (fun y hy => habs y (by simp [hy])), hk]
        rfl
    · have hf : Delta.qFind ((k, m) :: q) t = Delta.qFind q t := by
        unfold Delta.qFind
        rw [List.find?_cons]
        have : ((k, m).1 == t) = false := by simpa using hk
        rw [this]
      have he : Delta.qErase ((k, m) :: q) t = (k, m) :: Delta.qErase q t := by
        unfold Delta.qErase
        rw [List.filter_cons, if_pos (by simpa using hk)]
      have hst : (stamp k m).header.sendTime ≠ t := hk
      rw [hf, he, List.map_cons, List.map_cons]
      have ih' := ih h.2
      generalize q.map (fun e => stamp e.1 e.2) = rest at ih'
      cases rest with
      | nil =>
        unfold extract
        rw [if_neg hst]
        unfold extract at ih'
        rw [← (Prod.mk.inj ih').1, ← (Prod.mk.inj ih').2]
      | cons x rest =>
        unfold extract
        rw [if_neg hst, ih']

theorem erase_absent {q : Delta.Queue F} {t : Nat} (h : Delta.qFind q t = none) : Delta.qErase q t = q := by
  unfold Delta.qFind at h
  rw [Option.map_eq_none_iff, List.find?_eq_none] at h
  unfold Delta.qErase
  rw [List.filter_eq_self]
  intro e he
  simpa using h e he

/-- A step of a projection on the device and on the CPU. -/
theorem proj_match {dj : Proj F} {sj : Sys.ProjSt F} (h : Match dj sj) (t : Nat) (ms : List SpikeMessage) :
    (extract t (calcProj t dj ms).queue).1 = ((flowProj t sj ms).1.map (stamp t)).toList ∧
    Match { calcProj t dj ms with queue := (extract t (calcProj t dj ms).queue).2 } (flowProj t sj ms).2 ∧
    ∀ m ∈ (flowProj t sj ms).1, m.header.senderUid = sj.ident.uid := by
  obtain ⟨c1, c2, c3⟩ := calc_match h.uid h.pre h.post h.forced dj.synapses t ms sj.queue h.keys h.senders
  have hq : (calcProj t dj ms).queue = (Delta.calcSingle sj.ident (ascending dj.synapses) t sj.queue ms).map (fun e => stamp e.1 e.2) := by
    rw [← c1, ← h.queue]; rfl
  generalize hq1 : Delta.calcSingle sj.ident (ascending dj.synapses) t sj.queue ms = q1 at *
  have hfp : flowProj t sj ms = (Delta.qFind q1 t, { sj with queue := Delta.qErase q1 t }) := by
    unfold flowProj Delta.stepSingle
    simp only [h.proj, hq1]
    cases hf : Delta.qFind q1 t with
    | none => simp only [erase_absent hf]
    | some m => rfl
  rw [hfp, hq, extract_queue t q1 c2]
  refine ⟨rfl, ⟨h.uid, h.pre, h.post, h.forced, h.proj, rfl, ?_, ?_⟩, ?_⟩
  · exact c2.sublist ((List.filter_sublist).map _)
  · intro e he
    exact c3 e (List.mem_filter.1 he).1
  · intro m hm
    have hm' : Delta.qFind q1 t = some m := hm
    unfold Delta.qFind at hm'
    cases hff : q1.find? (fun e => e.1 == t) with
    | none => rw [hff] at hm'; cases hm'
    | some e =>
      rw [hff] at hm'
      simp only [Option.map_some, Option.some.injEq] at hm'
      rw [← hm']
      exact c3 e (List.mem_of_find?_eq_some hff)

/-! ## Populations -/

theorem popKernel_eq [Arith F] (t : Nat) (given : Nat → UID → List (SynapticImpactMessage F)) : ∀ (ps : List (Pop F)) (idx : Nat),
    popKernel t given idx ps = computePops t ps (ps.mapIdx (fun i p => given (idx + i) p.uid)) := by
  intro ps
  induction ps with
  | nil => intro idx; rfl
  | cons p ps ih =>
    intro idx
    rw [List.mapIdx_cons]
    unfold popKernel computePops
    simp only [List.headD_cons, List.tail_cons, Nat.add_zero]
    cases calcPop t p (given idx p.uid) with
    | throw w => rfl
    | ub => rfl
    | ok r =>
      simp only
      rw [ih]
      have : ps.mapIdx (fun i p => given (idx + 1 + i) p.uid) = ps.mapIdx (fun i p => given (idx + (i + 1)) p.uid) := by
        congr 1; funext i p; rw [show idx + 1 + i = idx + (i + 1) by omega]
      rw [this]
      cases computePops t ps (ps.mapIdx (fun i p => given (idx + (i + 1)) p.uid)) <;> rfl

theorem impactAll_no_throw [Arith F] : ∀ (ms : List (SynapticImpactMessage F)) (ns : List (Blifat F)) (w : String),
    impactAll ms ns ≠ .throw w := by
  have hneur : ∀ (n : Blifat F) (i : SynapticImpact F) (w : String), impactNeuron n i ≠ .throw w := by
    intro n i w
    unfold impactNeuron
    cases i.synapseType <;> simp only <;> try (intro h; cases h)
    cases Arith.toI64 i.impactValue with
    | none => intro h; cases h
    | some v => simp only; split <;> (intro h; cases h)
  have hat : ∀ (ns : List (Blifat F)) (i : SynapticImpact F) (w : String), impactAt ns i ≠ .throw w := by
    intro ns i w
    unfold impactAt
    cases ns[i.postsynapticNeuronIndex]? with
    | none => intro h; cases h
    | some n =>
      simp only
      cases hx : impactNeuron n i with
      | ok a => intro h; cases h
      | throw a => exact (hneur n i a hx).elim
      | ub => intro h; cases h
  have hmsg : ∀ (is : List (SynapticImpact F)) (ns : List (Blifat F)) (w : String), impactMessage is ns ≠ .throw w := by
    intro is
    induction is with
    | nil => intro ns w h; cases h
    | cons i is ih =>
      intro ns w
      unfold impactMessage
      cases hx : impactAt ns i with
      | ok a => simp only; exact ih a w
      | throw a => exact (hat ns i a hx).elim
      | ub => intro h; cases h
  intro ms
  induction ms with
  | nil => intro ns w h; cases h
  | cons m ms ih =>
    intro ns w
    unfold impactAll
    cases hx : impactMessage m.impacts ns with
    | ok a => simp only; exact ih a w
    | throw a => exact (hmsg _ ns a hx).elim
    | ub => intro h; cases h

theorem calcPop_no_throw [Arith F] (t : Nat) (p : Pop F) (ms : List (SynapticImpactMessage F)) (w : String) :
    calcPop t p ms ≠ .throw w := by
  unfold calcPop
  cases hx : impactAll ms (p.neurons.map preNeuron) with
  | ok a => intro h; cases h
  | throw a => exact (impactAll_no_throw _ _ _ hx).elim
  | ub => intro h; cases h

theorem computePops_no_throw [Arith F] (t : Nat) : ∀ (ps : List (Pop F)) (gs : List (List (SynapticImpactMessage F))) (w : String),
    computePops t ps gs ≠ .throw w := by
  intro ps
  induction ps with
  | nil => intro gs w h; cases h
  | cons p ps ih =>
    intro gs w
    unfold computePops
    cases hx : calcPop t p (gs.headD []) with
    | throw a => exact (calcPop_no_throw _ _ _ _ hx).elim
    | ub => intro h; cases h
    | ok r =>
      simp only
      cases hy : computePops t ps gs.tail with
      | ok q => intro h; cases h
      | throw a => exact (ih _ _ hy).elim
      | ub => intro h; cases h

theorem postLoop_spike [Arith F] (uid : UID) (t : Nat) (ms : List (SynapticImpactMessage F)) : ∀ (ns : List (Blifat F)) (i : Nat)
    (m : SpikeMessage), (postLoop uid t ms i ns).2 = some m → m.header = ⟨uid, t⟩ := by
  intro ns
  induction ns with
  | nil => intro i m h; cases h
  | cons n ns ih =>
    intro i m h
    cases ms with
    | nil => exact ih (i + 1) m h
    | cons x ms =>
      unfold postLoop at h
      simp only at h
      split at h
      · cases h
      · simp only [Option.some.injEq] at h
        rw [← h]

theorem calcPop_spike [Arith F] {t : Nat} {p : Pop F} {ms : List (SynapticImpactMessage F)} {r : Pop F × Option SpikeMessage}
    (h : calcPop t p ms = .ok r) : r.1.uid = p.uid ∧ ∀ m, r.2 = some m → m.header = ⟨p.uid, t⟩ := by
  unfold calcPop at h
  cases hx : impactAll ms (p.neurons.map preNeuron) with
  | throw a => rw [hx] at h; cases h
  | ub => rw [hx] at h; cases h
  | ok ns =>
    rw [hx] at h
    simp only [Outcome.ok.injEq] at h
    rw [← h]
    exact ⟨rfl, fun m hm => postLoop_spike _ _ _ _ _ _ hm⟩

theorem computePops_spec [Arith F] (t : Nat) : ∀ (ps : List (Pop F)) (gs : List (List (SynapticImpactMessage F)))
    (r : List (Pop F) × List (Option SpikeMessage)), computePops t ps gs = .ok r →
    r.1.map (·.uid) = ps.map (·.uid) ∧ ∀ m, some m ∈ r.2 → m.header.sendTime = t ∧ m.header.senderUid ∈ ps.map (·.uid) := by
  intro ps
  induction ps with
  | nil =>
    intro gs r h
    simp only [computePops, Outcome.ok.injEq] at h
    rw [← h]
    exact ⟨rfl, fun m hm => by simp at hm⟩
  | cons p ps ih =>
    intro gs r h
    unfold computePops at h
    cases hx : calcPop t p (gs.headD []) with
    | throw a => rw [hx] at h; cases h
    | ub => rw [hx] at h; cases h
    | ok a =>
      rw [hx] at h
      simp only at h
      cases hy : computePops t ps gs.tail with
      | throw a => rw [hy] at h; cases h
      | ub => rw [hy] at h; cases h
      | ok q =>
        rw [hy] at h
        simp only [Outcome.ok.injEq] at h
        obtain ⟨i1, i2⟩ := ih _ _ hy
        obtain ⟨c1, c2⟩ := calcPop_spike hx
        rw [← h]
        refine ⟨by simp [i1, c1], ?_⟩
        intro m hm
        rcases List.mem_cons.1 hm with hm | hm
        · have := c2 m hm.symm
          rw [this]; simp
        · obtain ⟨j1, j2⟩ := i2 m hm
          exact ⟨j1, by simp [j2]⟩

/-! ## Routing -/

/-- `Ready` without the receiving side. -/
theorem route_spec {chans : Nat} {w : World F} {e0 : Endpoint F} (h : Sys.Ready chans w e0) :
    w.route.1.queue = [] ∧ w.route.1.slots.length = chans + 1 ∧ (∀ i, i ≤ chans → ∃ e, w.route.1.endpoint i = some e) ∧
    w.route.1.endpoint 0 = some (routed (outbox w) e0) ∧ (∀ i, outboxOf w.route.1 i = []) ∧
    (∀ i, w.route.1.endpoint i = (w.endpoint i).map (routed (outbox w))) := by
  have he : ∀ i, w.route.1.endpoint i = (w.endpoint i).map (routed (outbox w)) := by
    intro i
    have := endpoint_route w i
    rw [update_queue w h.queue] at this
    exact this
  refine ⟨by rw [route_eq], ?_, ?_, ?_, ?_, he⟩
  · rw [route_eq]; simp [World.update, h.len]
  · intro i hi
    obtain ⟨e, h1⟩ := h.alive i hi
    rw [he i, h1]; exact ⟨_, rfl⟩
  · rw [he 0, h.ep]; rfl
  · intro i
    unfold outboxOf
    rw [he i]
    cases w.endpoint i <;> rfl

/-- A route that brings nothing to the backend. -/
theorem route_quiet {chans : Nat} {w : World F} {e0 : Endpoint F} (h : Sys.Ready chans w e0)
    (hq : ∀ m ∈ outbox w, m.sender ∉ e0.senders) :
    Sys.Ready chans w.route.1 { e0 with toSend := [] } ∧ (∀ i, outboxOf w.route.1 i = []) ∧
    (∀ i, w.route.1.endpoint i = (w.endpoint i).map (routed (outbox w))) := by
  obtain ⟨h1, h2, h3, h4, h5, h6⟩ := route_spec h
  have : routed (outbox w) e0 = { e0 with toSend := [] } := by
    unfold routed
    have : (outbox w).reverse.filter (fun m => e0.senders.contains m.sender) = [] := by
      rw [List.filter_eq_nil_iff]
      intro m hm
      have := hq m (by simpa using hm)
      simpa using this
    rw [this, List.append_nil]
  rw [this] at h4
  exact ⟨⟨h1, h2, h3, h4, h.recv, h.covered⟩, h5, h6⟩

end Knp.Cuda
