import Verif.Lemmas.SystemBoot
import Verif.Props.Delta

/-! # C104, C105: a whole network on the single-threaded backend -/

namespace Knp.Props
open Knp Knp.Bus Knp.Spec Knp.Neurons

variable {N F : Type}

/-! ## C104 -/

/-- What of a run can be seen: the states of populations and projections, and what every step did. -/
def visible : Outcome (Sys.State N F × List (Sys.StepOut F)) →
    Outcome ((List (Sys.PopSt N F) × List (Sys.ProjSt F)) × List (Sys.StepOut F))
  | .ok r => .ok ((r.1.pops, r.1.projs), r.2)
  | .throw w => .throw w
  | .ub => .ub

/-- C104. On the single-threaded backend, loaded and initialised, a run of any length computes the dataflow: in every step
every population is given exactly the impact messages the projections into it sent in the step before (and what the rest of the
program sent under such a name), in their order; every projection is given exactly the spike messages its input channels and
its source population sent in this step; nothing arrives twice, late, or at anybody else.  Any populations and projections with
different UIDs, any subscriptions of input projections, any number of channels, and any calls of the rest of the program
between the steps on endpoints other than the backend's.  The two runs also end with an exception, or undefined, together. -/
theorem C104_dataflow (pops : List (Sys.PopSt N F)) (projs : List (Delta.Ident × Delta.Proj F)) (inputs : List (UID × UID))
    (chans : Nat) (hnp : (pops.map (·.uid)).Nodup) (hnj : (projs.map (·.1.uid)).Nodup) (envs : List (Sys.Env F))
    (hf : ∀ env ∈ envs, ∀ op ∈ env, Foreign chans op) :
    visible (Sys.runSingle (Sys.boot pops projs inputs chans) envs) =
      flowRun (hearingOf projs inputs) 0 pops (projs.map fun j => ⟨j.1, j.2, []⟩) [] (envs.map (extOf chans)) := by
  obtain ⟨e0, hb⟩ := Sys.boot_between pops projs inputs chans
  have hp : (Sys.boot pops projs inputs chans).pops = pops := rfl
  have hj : (Sys.boot pops projs inputs chans).projs = projs.map fun j => ⟨j.1, j.2, []⟩ := rfl
  have hs : (Sys.boot pops projs inputs chans).step = 0 := rfl
  have := Sys.run_spec envs _ [] e0 hb (by rw [hp]; exact hnp) (by rw [hj, List.map_map]; exact hnj) hf
  rw [hp, hj, hs] at this
  cases hr : flowRun (hearingOf projs inputs) 0 pops (projs.map fun j => ⟨j.1, j.2, []⟩) [] (envs.map (extOf chans)) with
  | throw w => rw [hr] at this; simp only at this; rw [this]; rfl
  | ub => rw [hr] at this; simp only at this; rw [this]; rfl
  | ok x =>
    obtain ⟨st, os⟩ := x
    rw [hr] at this
    simp only at this
    obtain ⟨s', h1, h2, h3, _⟩ := this
    rw [h1]
    simp only [visible, h2, h3]

/-! ## C105 -/

/-- The impact messages a population was given in a step. -/
def givenTo (o : Sys.StepOut F) (u : UID) : List (SynapticImpactMessage F) := (o.given.lookup u).getD []

/-- The spike messages a projection was given in a step. -/
def heardBy (o : Sys.StepOut F) (u : UID) : List SpikeMessage := (o.heard.lookup u).getD []

theorem lookup_map {α β : Type} (key : α → UID) (f : UID → β) (u : UID) : ∀ l : List α, u ∈ l.map key →
    (l.map (fun j => (key j, f (key j)))).lookup u = some (f u) := by
  intro l
  induction l with
  | nil => intro h; simp at h
  | cons a l ih =>
    intro h
    rw [List.map_cons, List.lookup_cons]
    by_cases ha : u = key a
    · simp [ha]
    · have : (u == key a) = false := by simpa using ha
      rw [this]
      refine ih ?_
      rw [List.map_cons, List.mem_cons] at h
      exact h.resolve_left ha

/-- One step of the dataflow, seen from outside. -/
private theorem flowStep_ok {H : Hearing} {t : Nat} {pops : List (Sys.PopSt N F)} {projs : List (Sys.ProjSt F)}
    {pending : List (SynapticImpactMessage F)} {ext : List (Message F)}
    {st : List (Sys.PopSt N F) × List (Sys.ProjSt F)} {o : Sys.StepOut F}
    (h : flowStep H t pops projs pending ext = .ok (st, o)) :
    st.1.map (·.uid) = pops.map (·.uid) ∧
    (∀ u ∈ pops.map (·.uid), givenTo o u = (pending ++ Sys.impactsIn ext).filter (fun m => H.impact u m.header.senderUid)) ∧
    (∀ u ∈ projs.map (·.ident.uid), heardBy o u = (Sys.spikesIn ext ++ o.spikes).filter (fun m => H.spike u m.header.senderUid)) ∧
    st.2 = projs.map (fun j => (flowProj t j (heardBy o j.ident.uid)).2) ∧
    o.impacts = projs.flatMap (fun j => (flowProj t j (heardBy o j.ident.uid)).1.toList) := by
  unfold flowStep at h
  simp only at h
  cases hfp : flowPops t (fun r => (pending ++ Sys.impactsIn ext).filter (fun m => H.impact r m.header.senderUid)) pops with
  | throw w => rw [hfp] at h; cases h
  | ub => rw [hfp] at h; cases h
  | ok y =>
    obtain ⟨ps', ss⟩ := y
    rw [hfp] at h
    simp only [Outcome.ok.injEq, Prod.mk.injEq] at h
    obtain ⟨h1, h2⟩ := h
    have hh : ∀ u ∈ projs.map (·.ident.uid), heardBy o u =
        (Sys.spikesIn ext ++ ss).filter (fun m => H.spike u m.header.senderUid) := by
      intro u hu
      rw [← h2]
      unfold heardBy
      simp only
      rw [lookup_map (fun j : Sys.ProjSt F => j.ident.uid)
        (fun r => (Sys.spikesIn ext ++ ss).filter (fun m => H.spike r m.header.senderUid)) u projs hu]
      rfl
    refine ⟨?_, ?_, ?_, ?_, ?_⟩
    · rw [← h1]; exact Sys.flowPops_uids _ _ _ _ _ hfp
    · intro u hu
      rw [← h2]
      unfold givenTo
      simp only
      rw [lookup_map (fun p : Sys.PopSt N F => p.uid)
        (fun r => (pending ++ Sys.impactsIn ext).filter (fun m => H.impact r m.header.senderUid)) u pops hu]
      rfl
    · intro u hu
      rw [hh u hu, ← h2]
    · rw [← h1]
      simp only
      apply List.map_congr_left
      intro j hj
      rw [hh _ (List.mem_map.2 ⟨j, hj, rfl⟩)]
    · have himp : o.impacts = projs.flatMap (fun j => (flowProj t j ((Sys.spikesIn ext ++ ss).filter
          (fun m => H.spike j.ident.uid m.header.senderUid))).1.toList) := by rw [← h2]
      rw [himp, List.flatMap_def, List.flatMap_def]
      congr 1
      apply List.map_congr_left
      intro j hj
      rw [hh _ (List.mem_map.2 ⟨j, hj, rfl⟩)]

/-- A projection in a run: what it sends in each step is what it sends alone when it hears the same. -/
private theorem flowRun_ok {H : Hearing} (exts : List (List (Message F))) : ∀ (t : Nat) (pops : List (Sys.PopSt N F))
    (projs : List (Sys.ProjSt F)) (pending : List (SynapticImpactMessage F))
    (st : List (Sys.PopSt N F) × List (Sys.ProjSt F)) (os : List (Sys.StepOut F)),
    flowRun H t pops projs pending exts = .ok (st, os) →
    os.length = exts.length ∧
    (∀ (i : Nat) (h : i < os.length), ∀ u ∈ projs.map (·.ident.uid), heardBy os[i] u =
      (Sys.spikesIn (exts.getD i []) ++ os[i].spikes).filter (fun m => H.spike u m.header.senderUid)) ∧
    (∀ (i : Nat) (h : i < os.length), os[i].impacts = projs.flatMap (fun j => (((Delta.runSingle j.ident t j.queue
      ((os.map (fun o => heardBy o j.ident.uid)).map (fun m => ⟨j.proj, m⟩))).1[i]?).join).toList)) ∧
    (∀ (h : 0 < os.length), ∀ u ∈ pops.map (·.uid), givenTo os[0] u =
      (pending ++ Sys.impactsIn (exts.getD 0 [])).filter (fun m => H.impact u m.header.senderUid)) ∧
    (∀ (i : Nat) (h : i + 1 < os.length), ∀ u ∈ pops.map (·.uid), givenTo os[i + 1] u =
      (os[i].impacts ++ Sys.impactsIn (exts.getD (i + 1) [])).filter (fun m => H.impact u m.header.senderUid)) := by
  induction exts with
  | nil =>
    intro t pops projs pending st os h
    simp only [flowRun, Outcome.ok.injEq, Prod.mk.injEq] at h
    obtain ⟨_, rfl⟩ := h
    exact ⟨rfl, fun i h => by simp at h, fun i h => by simp at h, fun h => by simp at h, fun i h => by simp at h⟩
  | cons ext exts ih =>
    intro t pops projs pending st os h
    unfold flowRun at h
    cases hfs : flowStep H t pops projs pending ext with
    | throw w => rw [hfs] at h; cases h
    | ub => rw [hfs] at h; cases h
    | ok x =>
      obtain ⟨st1, o⟩ := x
      rw [hfs] at h
      simp only at h
      cases hfr : flowRun H (t + 1) st1.1 st1.2 o.impacts exts with
      | throw w => rw [hfr] at h; cases h
      | ub => rw [hfr] at h; cases h
      | ok y =>
        obtain ⟨st', os'⟩ := y
        rw [hfr] at h
        simp only [Outcome.ok.injEq, Prod.mk.injEq] at h
        obtain ⟨_, rfl⟩ := h
        obtain ⟨a1, a2, a3, a4, a5⟩ := flowStep_ok hfs
        obtain ⟨b1, b2, b3, b4, b5⟩ := ih _ _ _ _ _ _ hfr
        have huid : st1.2.map (·.ident.uid) = projs.map (·.ident.uid) := by
          rw [a4, List.map_map]; rfl
        refine ⟨by simp [b1], ?_, ?_, ?_, ?_⟩
        · intro i hi u hu
          cases i with
          | zero => exact a3 u hu
          | succ i =>
            have := b2 i (by simpa using hi) u (by rw [huid]; exact hu)
            simpa using this
        · intro i hi
          cases i with
          | zero =>
            show o.impacts = _
            rw [a5, List.flatMap_def, List.flatMap_def]
            congr 1
          | succ i =>
            have hi' : i < os'.length := by simpa using hi
            have := b3 i hi'
            show (os'[i]'hi').impacts = _
            rw [this, a4, List.flatMap_map, List.flatMap_def, List.flatMap_def]
            congr 1
        · intro _ u hu
          exact a2 u hu
        · intro i hi u hu
          cases i with
          | zero =>
            have := b4 (by simpa using hi) u (by rw [a1]; exact hu)
            simpa using this
          | succ i =>
            have := b5 i (by simpa using hi) u (by rw [a1]; exact hu)
            simpa using this

theorem flatMap_uid {α β : Type} (key : α → UID) (snd : β → UID) (f : α → List β) (u : UID) (j : α) :
    ∀ l : List α, (l.map key).Nodup → j ∈ l → key j = u → (∀ a ∈ l, ∀ b ∈ f a, snd b = key a) →
      (l.flatMap f).filter (fun b => snd b == u) = f j := by
  intro l
  induction l with
  | nil => intro _ h; simp at h
  | cons a l ih =>
    intro hnd hj hu hf
    rw [List.map_cons, List.nodup_cons] at hnd
    rw [List.flatMap_cons, List.filter_append]
    by_cases hja : j = a
    · subst hja
      have h1 : (f j).filter (fun b => snd b == u) = f j := by
        rw [List.filter_eq_self]
        intro b hb
        rw [hf j (by simp) b hb, hu]; simp
      have h2 : (l.flatMap f).filter (fun b => snd b == u) = [] := by
        rw [List.filter_eq_nil_iff]
        intro b hb
        obtain ⟨a', ha', hb'⟩ := List.mem_flatMap.1 hb
        rw [hf a' (by simp [ha']) b hb']
        simp only [beq_iff_eq]
        intro he
        exact hnd.1 (List.mem_map.2 ⟨a', ha', he.trans hu.symm⟩)
      rw [h1, h2, List.append_nil]
    · have hjl : j ∈ l := (List.mem_cons.1 hj).resolve_left hja
      have h1 : (f a).filter (fun b => snd b == u) = [] := by
        rw [List.filter_eq_nil_iff]
        intro b hb
        rw [hf a (by simp) b hb]
        simp only [beq_iff_eq]
        intro he
        exact hnd.1 (List.mem_map.2 ⟨j, hjl, hu.trans he.symm⟩)
      rw [h1, List.nil_append]
      exact ih hnd.2 hjl hu (fun a' ha' => hf a' (by simp [ha']))

/-- The impacts of synapse `k` of projection `u` among the given messages. -/
def impactsOf (u : UID) (k : Nat) (ms : List (SynapticImpactMessage F)) : Nat :=
  ((ms.filter (fun m => m.header.senderUid == u)).flatMap (·.impacts)).countP (fun im => im.connectionIndex == k)

/-- C105. A synapse in a running network: in step `T` the postsynaptic population is given, from a synapse with delay `D`, as
many impacts as its source neuron spiked in the messages the projection heard in step `T - D` — none before step `D` — and
every impact of the projection carries the weight, type and ends of its synapse. Any network, any run of the
single-threaded backend that ends normally, any calls of the rest of the program except forging messages of the projection. -/
theorem C105_end_to_end (pops : List (Sys.PopSt N F)) (projs : List (Delta.Ident × Delta.Proj F)) (inputs : List (UID × UID))
    (chans : Nat) (hnp : (pops.map (·.uid)).Nodup) (hnj : (projs.map (·.1.uid)).Nodup) (envs : List (Sys.Env F))
    (hf : ∀ env ∈ envs, ∀ op ∈ env, Foreign chans op) (s : Sys.State N F) (os : List (Sys.StepOut F))
    (hrun : Sys.runSingle (Sys.boot pops projs inputs chans) envs = .ok (s, os))
    (p : Sys.PopSt N F) (hp : p ∈ pops) (hp0 : p.uid ≠ 0) (j : Delta.Ident × Delta.Proj F) (hj : j ∈ projs)
    (hpost : j.1.post = p.uid) (hfind : ∀ i ∈ projs, ExactFind i.2)
    (hsound : ∀ i ∈ projs, Sound envs.length i.2)
    (hforge : ∀ env ∈ envs, ∀ e im, Bus.Op.send e (.impact im) ∈ env → im.header.senderUid ≠ j.1.uid)
    (T : Nat) (hT : T < os.length) :
    (∀ k y, j.2.synapses[k]? = some y → impactsOf j.1.uid k (givenTo os[T] p.uid) =
      if y.delay ≤ T then spikesOf y.source (heardBy (os.getD (T - y.delay) ⟨[], [], [], []⟩) j.1.uid) else 0) ∧
    (∀ m ∈ givenTo os[T] p.uid, m.header.senderUid = j.1.uid → ∀ im ∈ m.impacts, ∃ y, j.2.synapses[im.connectionIndex]? =
      some y ∧ im = ⟨im.connectionIndex, y.weight, y.outType, y.source, y.target⟩) := by
  have href := C104_dataflow pops projs inputs chans hnp hnj envs hf
  rw [hrun] at href
  simp only [visible] at href
  obtain ⟨c1, c2, c3, c4, c5⟩ := flowRun_ok _ _ _ _ _ _ _ href.symm
  rw [List.length_map] at c1
  have hpu : p.uid ∈ pops.map (·.uid) := List.mem_map.2 ⟨p, hp, rfl⟩
  -- nothing forged
  have hext : ∀ i, (Sys.impactsIn ((envs.map (extOf chans)).getD i [])).filter (fun m => m.header.senderUid == j.1.uid) = [] := by
    intro i
    rw [List.filter_eq_nil_iff]
    intro m hm
    by_cases hi : i < envs.length
    · rw [List.getD_eq_getElem?_getD, List.getElem?_map, List.getElem?_eq_getElem hi] at hm
      simp only [Option.map_some, Option.getD_some] at hm
      unfold Sys.impactsIn at hm
      obtain ⟨m', hm', he⟩ := List.mem_filterMap.1 hm
      cases m' with
      | spike x => simp at he
      | impact x =>
        simp only [Option.some.injEq] at he
        subst he
        unfold extOf sentVia at hm'
        obtain ⟨e, _, h2⟩ := List.mem_flatMap.1 hm'
        obtain ⟨op, hop, h3⟩ := List.mem_filterMap.1 h2
        cases op with
        | send e' m'' =>
          simp only at h3
          split at h3
          · simp only [Option.some.injEq] at h3
            subst h3
            have := hforge envs[i] (List.getElem_mem hi) e' x hop
            simpa using this
          · simp at h3
        | _ => simp at h3
    · rw [List.getD_eq_getElem?_getD, List.getElem?_eq_none (by simp; omega)] at hm
      simp [Sys.impactsIn] at hm
  -- who hears whom
  have hhear : (hearingOf projs inputs).impact p.uid j.1.uid = true := by
    simp only [hearingOf, Bool.and_eq_true, decide_eq_true_eq, List.any_eq_true, beq_iff_eq]
    exact ⟨hp0, j, hj, hpost, rfl⟩
  have hsel : ∀ l : List (SynapticImpactMessage F), (l.filter (fun m => (hearingOf projs inputs).impact p.uid m.header.senderUid)).filter
      (fun m => m.header.senderUid == j.1.uid) = l.filter (fun m => m.header.senderUid == j.1.uid) := by
    intro l
    rw [List.filter_filter]
    apply List.filter_congr
    intro m _
    by_cases hm : m.header.senderUid = j.1.uid
    · simp [hm, hhear]
    · have : (m.header.senderUid == j.1.uid) = false := by simpa using hm
      rw [this, Bool.false_and]
  -- what the projections send
  have hout : ∀ i ∈ projs, ∀ t, t < os.length → ∃ out,
      (Delta.runSingle i.1 0 [] ((os.map (fun o => heardBy o i.1.uid)).map (fun m => ⟨i.2, m⟩))).1[t]? = some out ∧
      (∀ m, out = some m → m.header.senderUid = i.1.uid) ∧
      (∀ k y, i.2.synapses[k]? = some y → (delivered out).countP (fun im => im.connectionIndex == k) =
          if y.delay - 1 ≤ t then spikesOf y.source ((os.map (fun o => heardBy o i.1.uid)).getD (t - (y.delay - 1)) []) else 0) ∧
      ∀ im ∈ delivered out, ∃ y, i.2.synapses[im.connectionIndex]? = some y ∧ im =
        ⟨im.connectionIndex, y.weight, y.outType, y.source, y.target⟩ := by
    intro i hi t ht
    have hs : Sound (0 + (os.map (fun o => heardBy o i.1.uid)).length) i.2 := by
      rw [Nat.zero_add, List.length_map, c1]; exact hsound i hi
    obtain ⟨out, o1, o2, o3⟩ := C42_delay_honoured i.1 0 i.2 (hfind i hi) (os.map (fun o => heardBy o i.1.uid)) hs t
      (by rw [List.length_map]; exact ht)
    refine ⟨out, o1, ?_, o2, o3⟩
    have h43 := (C43_no_loss_no_duplication i.1 0 ((os.map (fun o => heardBy o i.1.uid)).map (fun m => ⟨i.2, m⟩)) (by
      intro a ha y hy
      rw [List.getElem_map] at hy
      obtain ⟨s1, s2, s3, s4⟩ := hs y hy
      simp only [List.length_map] at ha s4
      exact ⟨s1, s2, s3, by omega⟩)).1 t (by simp only [List.length_map]; exact ht)
    rw [o1] at h43
    intro m hm
    have := Option.some.inj h43
    rw [hm] at this
    generalize List.filter _ _ = cl at this
    cases cl with
    | nil => simp [messageFor] at this
    | cons c cs =>
      simp only [messageFor, Option.some.injEq] at this
      rw [this]
  -- what arrives from `j`
  have key : ∀ t, (h : t < os.length) → (os[t].impacts).filter (fun m => m.header.senderUid == j.1.uid) =
      (((Delta.runSingle j.1 0 [] ((os.map (fun o => heardBy o j.1.uid)).map (fun m => ⟨j.2, m⟩))).1[t]?).join).toList := by
    intro t ht
    rw [c3 t ht, List.flatMap_map]
    refine flatMap_uid (fun i : Delta.Ident × Delta.Proj F => i.1.uid) (fun m : SynapticImpactMessage F => m.header.senderUid) _ j.1.uid j projs hnj hj rfl ?_
    intro i hi m hm
    obtain ⟨out, o1, o2, _⟩ := hout i hi t ht
    simp only [o1, Option.join_some] at hm
    cases out with
    | none => simp at hm
    | some m' =>
      simp only [Option.toList_some, List.mem_singleton] at hm
      exact o2 m (by rw [hm])
  have hgiven : (givenTo os[T] p.uid).filter (fun m => m.header.senderUid == j.1.uid) =
      match T with
      | 0 => []
      | t + 1 => (((Delta.runSingle j.1 0 [] ((os.map (fun o => heardBy o j.1.uid)).map (fun m => ⟨j.2, m⟩))).1[t]?).join).toList := by
    cases T with
    | zero => rw [c4 hT p.uid hpu, hsel, List.nil_append, hext]
    | succ t => rw [c5 t hT p.uid hpu, hsel, List.filter_append, hext, List.append_nil, key t (by omega)]
  have hpos : ∀ (k : Nat) (y : Delta.Syn F), j.2.synapses[k]? = some y → 1 ≤ y.delay := by
    intro k y hy
    exact (hsound j hj y (List.mem_of_getElem? hy)).2.2.1
  cases T with
  | zero =>
    simp only at hgiven
    refine ⟨fun k y hy => ?_, fun m hm hu => ?_⟩
    · unfold impactsOf
      rw [hgiven, if_neg (by have := hpos k y hy; omega)]
      rfl
    · have : m ∈ (givenTo os[0] p.uid).filter (fun m => m.header.senderUid == j.1.uid) :=
        List.mem_filter.2 ⟨hm, by simpa using hu⟩
      rw [hgiven] at this
      simp at this
  | succ t =>
    simp only at hgiven
    obtain ⟨out, o1, o2, o3, o4⟩ := hout j hj t (by omega)
    have hd : (((Delta.runSingle j.1 0 [] ((os.map (fun o => heardBy o j.1.uid)).map (fun m => ⟨j.2, m⟩))).1[t]?).join).toList.flatMap
        (·.impacts) = delivered out := by
      rw [o1]
      cases out <;> simp [delivered]
    refine ⟨fun k y hy => ?_, fun m hm hu => ?_⟩
    · unfold impactsOf
      rw [hgiven, hd, o3 k y hy]
      have h1 := hpos k y hy
      by_cases hc : y.delay ≤ t + 1
      · rw [if_pos hc, if_pos (by omega)]
        have e : t - (y.delay - 1) = t + 1 - y.delay := by omega
        rw [e]
        congr 1
        have hl : t + 1 - y.delay < os.length := by omega
        rw [List.getD_eq_getElem?_getD, List.getElem?_map, List.getElem?_eq_getElem hl, List.getD_eq_getElem?_getD,
          List.getElem?_eq_getElem hl]
        rfl
      · rw [if_neg hc, if_neg (by omega)]
    · have hm' : m ∈ (givenTo os[t + 1] p.uid).filter (fun m => m.header.senderUid == j.1.uid) :=
        List.mem_filter.2 ⟨hm, by simpa using hu⟩
      rw [hgiven, o1] at hm'
      intro im him
      cases out with
      | none => simp at hm'
      | some m2 =>
        simp only [Option.join_some, Option.toList_some, List.mem_singleton] at hm'
        subst hm'
        exact o4 im him

/-- C105, between two populations: if the projection has no input channels and nobody forges messages of its source population,
the impacts of a synapse in step `T` are the spikes its source neuron's population sent in step `T - D`. -/
theorem C105_neuron_to_neuron (pops : List (Sys.PopSt N F)) (projs : List (Delta.Ident × Delta.Proj F))
    (inputs : List (UID × UID)) (chans : Nat) (hnp : (pops.map (·.uid)).Nodup) (hnj : (projs.map (·.1.uid)).Nodup)
    (envs : List (Sys.Env F)) (hf : ∀ env ∈ envs, ∀ op ∈ env, Foreign chans op) (s : Sys.State N F)
    (os : List (Sys.StepOut F)) (hrun : Sys.runSingle (Sys.boot pops projs inputs chans) envs = .ok (s, os))
    (p : Sys.PopSt N F) (hp : p ∈ pops) (hp0 : p.uid ≠ 0) (j : Delta.Ident × Delta.Proj F) (hj : j ∈ projs)
    (hpost : j.1.post = p.uid) (hpre0 : j.1.pre ≠ 0) (hin : ∀ c, (j.1.uid, c) ∉ inputs)
    (hfind : ∀ i ∈ projs, ExactFind i.2) (hsound : ∀ i ∈ projs, Sound envs.length i.2)
    (hforge : ∀ env ∈ envs, ∀ e im, Bus.Op.send e (.impact im) ∈ env → im.header.senderUid ≠ j.1.uid)
    (hforge' : ∀ env ∈ envs, ∀ e sm, Bus.Op.send e (.spike sm) ∈ env → sm.header.senderUid ≠ j.1.pre)
    (T : Nat) (hT : T < os.length) (k : Nat) (y : Delta.Syn F) (hy : j.2.synapses[k]? = some y) :
    impactsOf j.1.uid k (givenTo os[T] p.uid) =
      if y.delay ≤ T then
        spikesOf y.source (((os.getD (T - y.delay) ⟨[], [], [], []⟩).spikes).filter (fun m => m.header.senderUid == j.1.pre))
      else 0 := by
  rw [(C105_end_to_end pops projs inputs chans hnp hnj envs hf s os hrun p hp hp0 j hj hpost hfind hsound hforge T hT).1 k y hy]
  by_cases hd : y.delay ≤ T
  · rw [if_pos hd, if_pos hd]
    congr 1
    have hl : T - y.delay < os.length := by omega
    rw [List.getD_eq_getElem?_getD, List.getElem?_eq_getElem hl]
    simp only [Option.getD_some]
    have href := C104_dataflow pops projs inputs chans hnp hnj envs hf
    rw [hrun] at href
    simp only [visible] at href
    obtain ⟨c1, c2, _⟩ := flowRun_ok _ _ _ _ _ _ _ href.symm
    rw [List.length_map] at c1
    rw [c2 _ hl j.1.uid (by rw [List.map_map]; exact List.mem_map.2 ⟨j, hj, rfl⟩), List.filter_append]
    have hH : ∀ u, (hearingOf projs inputs).spike j.1.uid u = (u == j.1.pre) := by
      intro u
      have hni : inputs.contains (j.1.uid, u) = false := by simpa using hin u
      simp only [hearingOf, hni, Bool.or_false]
      rw [Bool.eq_iff_iff]
      simp only [Bool.and_eq_true, decide_eq_true_eq, List.any_eq_true, beq_iff_eq]
      constructor
      · rintro ⟨_, i, hi, h1, h2⟩
        have : i = j := by
          exact List.inj_on_of_nodup_map hnj hi hj h1
        rw [← h2, this]
      · intro h
        exact ⟨by rw [h]; exact hpre0, j, hj, rfl, h.symm⟩
    have hz : (Sys.spikesIn ((envs.map (extOf chans)).getD (T - y.delay) [])).filter
        (fun m => (hearingOf projs inputs).spike j.1.uid m.header.senderUid) = [] := by
      rw [List.filter_eq_nil_iff]
      intro m hm
      rw [hH]
      have hl' : T - y.delay < envs.length := by omega
      rw [List.getD_eq_getElem?_getD, List.getElem?_map, List.getElem?_eq_getElem hl'] at hm
      simp only [Option.map_some, Option.getD_some] at hm
      unfold Sys.spikesIn at hm
      obtain ⟨m', hm', he⟩ := List.mem_filterMap.1 hm
      cases m' with
      | impact x => simp at he
      | spike x =>
        simp only [Option.some.injEq] at he
        subst he
        unfold extOf sentVia at hm'
        obtain ⟨e, _, h2⟩ := List.mem_flatMap.1 hm'
        obtain ⟨op, hop, h3⟩ := List.mem_filterMap.1 h2
        cases op with
        | send e' m'' =>
          simp only at h3
          split at h3
          · simp only [Option.some.injEq] at h3
            subst h3
            have := hforge' envs[T - y.delay] (List.getElem_mem hl') e' x hop
            simpa using this
          · simp at h3
        | _ => simp at h3
    rw [hz, List.nil_append]
    apply List.filter_congr
    intro m _
    exact hH _
  · rw [if_neg hd, if_neg hd]

/-! A network of two populations: an input channel (UID 50, endpoint 1) drives population 1 through projection 10, population 1
drives population 2 through projection 20 (delays 1 and 2), population 2 excites itself through projection 30. -/

private def sysNeuron : Lif Int := ⟨0, 0, 5, 1, 0, 1⟩
private def sysPops : List (Sys.PopSt (Lif Int) Int) :=
  [⟨1, lif, [sysNeuron, sysNeuron]⟩, ⟨2, lif, [sysNeuron]⟩]
private def sysProjs : List (Delta.Ident × Delta.Proj Int) :=
  [(⟨10, 0, 1, false⟩, ⟨[⟨0, 0, 9, 1, .excitatory⟩, ⟨1, 1, 9, 1, .excitatory⟩],
      fun n => if n = 0 then [0] else if n = 1 then [1] else []⟩),
   (⟨20, 1, 2, false⟩, ⟨[⟨0, 0, 3, 1, .excitatory⟩, ⟨1, 0, 9, 2, .excitatory⟩],
      fun n => if n = 0 then [0] else if n = 1 then [1] else []⟩),
   (⟨30, 2, 2, false⟩, ⟨[⟨0, 0, 4, 1, .excitatory⟩], fun n => if n = 0 then [0] else []⟩)]
private def sysEnvs : List (Sys.Env Int) :=
  [[.send 1 (.spike ⟨⟨50, 0⟩, [0, 1]⟩), .subscribe 2 .spike 99 [2]], [], [.receiveAll 2, .send 1 (.spike ⟨⟨50, 2⟩, [1]⟩)],
   [.send 2 (.impact ⟨⟨99, 2⟩, 1, 2, false, []⟩)], [.receiveAll 2, .unload 2 .spike 99]]
private def sysRun := Sys.runSingle (Sys.boot sysPops sysProjs [(10, 50)] 2) sysEnvs

private def outs : Outcome (Sys.State (Lif Int) Int × List (Sys.StepOut Int)) → List (Sys.StepOut Int)
  | .ok r => r.2
  | _ => []

example : sysRun.isOk = true ∧ (outs sysRun).length = 5 := by decide +kernel
example : (sysPops.map (·.uid)).Nodup ∧ (sysProjs.map (·.1.uid)).Nodup := by decide
example : ∀ env ∈ sysEnvs, ∀ op ∈ env, Foreign 2 op := by simp [sysEnvs, Foreign]
/-- The input spikes of step 0 reach population 1 in step 1, which fires; population 2 gets the first impact in step 2 and the
second in step 3, and fires. -/
example : (outs sysRun).map (fun o => (o.spikes.map (fun m => (m.header.senderUid, m.neuronIndexes)),
      (givenTo o 2).map (fun m => (m.header.senderUid, m.impacts.map (·.connectionIndex))))) =
    [([], []), ([(1, [0, 1])], []), ([], [(20, [0])]), ([(1, [1]), (2, [0])], [(20, [1])]), ([], [(30, [0])])] := by decide +kernel
example : impactsOf 20 1 (givenTo ((outs sysRun).getD 3 ⟨[], [], [], []⟩) 2) = 1 ∧
    spikesOf 1 (((outs sysRun).getD 1 ⟨[], [], [], []⟩).spikes.filter (fun m => m.header.senderUid == 1)) = 1 := by decide +kernel
example : ∀ i ∈ sysProjs, Sound sysEnvs.length i.2 := by
  intro i hi y hy
  simp only [sysProjs, List.mem_cons, List.not_mem_nil, or_false] at hi
  rcases hi with rfl | rfl | rfl
  all_goals
    simp only [List.mem_cons, List.not_mem_nil, or_false] at hy
  · rcases hy with rfl | rfl <;> decide +kernel
  · rcases hy with rfl | rfl <;> decide +kernel
  · rw [hy]; decide +kernel
example : ∀ i ∈ sysProjs, ExactFind i.2 := by
  intro i hi n
  simp only [sysProjs, List.mem_cons, List.not_mem_nil, or_false] at hi
  rcases hi with rfl | rfl | rfl
  all_goals
    refine ⟨?_, fun k => ?_⟩
    · by_cases h : n = 0 <;> by_cases h1 : n = 1 <;> simp [h, h1]
    · rcases k with _ | _ | k <;>
      by_cases h : n = 0 <;> by_cases h1 : n = 1 <;> simp [h, h1] <;> omega
/-- The two runs of C104 agree here, and the dataflow is not trivial. -/
example : (match flowRun (hearingOf sysProjs [(10, 50)]) 0 sysPops (sysProjs.map fun j => ⟨j.1, j.2, []⟩) []
    (sysEnvs.map (extOf 2)) with | .ok r => r.2.map (·.spikes) | _ => []) =
    [[], [⟨⟨1, 1⟩, [0, 1]⟩], [], [⟨⟨1, 3⟩, [1]⟩, ⟨⟨2, 3⟩, [0]⟩], []] := by decide +kernel

end Knp.Props
