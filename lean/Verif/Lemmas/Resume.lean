import Verif.Model.Resume
import Verif.Spec.Resume
import Verif.Props.System

/-! # Lemmas: a run moved on by `n` steps; runs in two parts; nothing on its way -/

namespace Knp.Lemmas.Resume
open Knp Knp.Spec Knp.Neurons Knp.Delta Knp.Props

variable {N F : Type}

/-! ## One population -/

theorem impactPopulation_later (n : Nat) (k : Kind N F) (msgs : List (SynapticImpactMessage F)) : ∀ (pop : List N),
    impactPopulation k pop (msgs.map (laterI n)) = impactPopulation k pop msgs := by
  unfold impactPopulation
  intro pop
  rw [List.foldlM_map]
  rfl

theorem stepPopulation_later (n : Nat) (k : Kind N F) (uid : UID) (t : Nat) (pop : List N)
    (msgs : List (SynapticImpactMessage F)) :
    stepPopulation k uid (t + n) pop (msgs.map (laterI n)) =
      match stepPopulation k uid t pop msgs with
      | .ok r => .ok (r.1, r.2.map (laterS n))
      | .throw w => .throw w
      | .ub => .ub := by
  unfold stepPopulation
  simp only [impactPopulation_later]
  cases preImpact k pop 0 pop.length with
  | throw w => rfl
  | ub => rfl
  | ok p1 =>
    simp only [Outcome.bind_ok]
    cases impactPopulation k p1 msgs with
    | throw w => rfl
    | ub => rfl
    | ok p2 =>
      simp only [Outcome.bind_ok]
      cases postImpact k p2 [] 0 p2.length with
      | throw w => rfl
      | ub => rfl
      | ok r =>
        simp only [Outcome.bind_ok]
        by_cases h : r.2.isEmpty = true
        · simp [h, pure]
        · simp [h, pure, laterS, laterH]

theorem flowPops_later (n t : Nat) (g g' : UID → List (SynapticImpactMessage F)) (hg : ∀ u, g' u = (g u).map (laterI n)) :
    ∀ (ps : List (Sys.PopSt N F)), flowPops (t + n) g' ps =
      match flowPops t g ps with
      | .ok (ps', ss) => .ok (ps', ss.map (laterS n))
      | .throw w => .throw w
      | .ub => .ub
  | [] => rfl
  | p :: ps => by
    unfold flowPops
    rw [hg, stepPopulation_later, flowPops_later n t g g' hg ps]
    cases stepPopulation p.kind p.uid t p.neurons (g p.uid) with
    | throw w => rfl
    | ub => rfl
    | ok r =>
      dsimp only
      cases flowPops t g ps with
      | throw w => rfl
      | ub => rfl
      | ok x =>
        obtain ⟨ps', ss⟩ := x
        cases h : r.2 <;> simp

/-! ## One projection -/

/-- A queue moved on by `n` steps. -/
def laterQ (n : Nat) (q : Queue F) : Queue F := q.map (fun e => (e.1 + n, laterI n e.2))

theorem qPush_later (n t key : Nat) (d : Ident) (imp : SynapticImpact F) : ∀ (q : Queue F),
    qPush (mkSingle d (t + n)) (key + n) imp (laterQ n q) = laterQ n (qPush (mkSingle d t) key imp q)
  | [] => rfl
  | (k, m) :: q => by
    have ih := qPush_later n t key d imp q
    unfold laterQ at ih ⊢
    rw [List.map_cons]
    unfold qPush
    by_cases h : k = key
    · subst h; simp [laterI]
    · have h' : k + n ≠ key + n := by omega
      dsimp only
      rw [if_neg h, if_neg h', ih, List.map_cons]

theorem futureStep_eq (delay t : Nat) (h1 : 1 ≤ delay) (h2 : t + delay < two64) : futureStep delay t = t + delay - 1 := by
  unfold futureStep
  rw [addU64_of_lt (by omega), subU64_of_le (by omega) (by omega)]
  omega

/-- Delays are at least 1 and no due step exceeds 64 bits. -/
def Timely (last : Nat) (p : Proj F) : Prop := ∀ y ∈ p.synapses, 1 ≤ y.delay ∧ last + y.delay < two64

theorem pushSpike_later (n t : Nat) (d : Ident) (p : Proj F) (hs : Timely (t + n) p) (q : Queue F) (a : Nat) :
    pushSpike d p (t + n) (laterQ n q) a = laterQ n (pushSpike d p t q a) := by
  unfold pushSpike
  generalize p.find a = l
  induction l generalizing q with
  | nil => rfl
  | cons k l ih =>
    rw [List.foldl_cons, List.foldl_cons]
    cases hk : p.synapses[k]? with
    | none => exact ih q
    | some s =>
      obtain ⟨h1, h2⟩ := hs s (List.mem_of_getElem? hk)
      dsimp only
      rw [futureStep_eq _ _ h1 h2, futureStep_eq _ _ h1 (by omega),
        show t + n + s.delay - 1 = t + s.delay - 1 + n by omega, qPush_later]
      exact ih _

theorem calcSingle_later (n t : Nat) (d : Ident) (p : Proj F) (hs : Timely (t + n) p) (msgs : List SpikeMessage) :
    ∀ (q : Queue F), calcSingle d p (t + n) (laterQ n q) (msgs.map (laterS n)) = laterQ n (calcSingle d p t q msgs) := by
  unfold calcSingle
  induction msgs with
  | nil => intro q; rfl
  | cons m ms ih =>
    intro q
    rw [List.map_cons, List.foldl_cons, List.foldl_cons, ← ih]
    congr 1
    show m.neuronIndexes.foldl _ _ = _
    generalize m.neuronIndexes = l
    induction l generalizing q with
    | nil => rfl
    | cons a l ih2 => rw [List.foldl_cons, List.foldl_cons, pushSpike_later n t d p hs, ih2]

theorem qFind_later (n t : Nat) (q : Queue F) : qFind (laterQ n q) (t + n) = (qFind q t).map (laterI n) := by
  unfold qFind laterQ
  induction q with
  | nil => rfl
  | cons e q ih =>
    rw [List.map_cons, List.find?_cons, List.find?_cons]
    by_cases h : e.1 = t
    · simp [h]
    · have h' : ¬ e.1 + n = t + n := by omega
      simp only [beq_eq_false_iff_ne.2 h, beq_eq_false_iff_ne.2 h']
      exact ih

theorem qErase_later (n t : Nat) (q : Queue F) : qErase (laterQ n q) (t + n) = laterQ n (qErase q t) := by
  unfold qErase laterQ
  rw [List.filter_map]
  congr 1
  apply List.filter_congr
  intro e _
  rw [Bool.eq_iff_iff]
  simp

theorem stepSingle_later (n t : Nat) (d : Ident) (p : Proj F) (hs : Timely (t + n) p) (q : Queue F) (msgs : List SpikeMessage) :
    Delta.stepSingle d p (t + n) (laterQ n q) (msgs.map (laterS n)) =
      ((Delta.stepSingle d p t q msgs).1.map (laterI n), laterQ n (Delta.stepSingle d p t q msgs).2) := by
  unfold Delta.stepSingle
  simp only [calcSingle_later n t d p hs, qFind_later]
  cases qFind (calcSingle d p t q msgs) t with
  | none => rfl
  | some m => simp only [Option.map_some, qErase_later]

theorem flowProj_later (n t : Nat) (j : Sys.ProjSt F) (hs : Timely (t + n) j.proj) (msgs : List SpikeMessage) :
    flowProj (t + n) (laterJ n j) (msgs.map (laterS n)) =
      ((flowProj t j msgs).1.map (laterI n), laterJ n (flowProj t j msgs).2) := by
  have h := stepSingle_later n t j.ident j.proj hs j.queue msgs
  unfold flowProj laterJ
  dsimp only
  unfold laterQ at h
  rw [h]

/-! ## Steps and runs -/

theorem filter_later_I (n : Nat) (f : UID → Bool) (l : List (SynapticImpactMessage F)) :
    (l.map (laterI n)).filter (fun m => f m.header.senderUid) = (l.filter (fun m => f m.header.senderUid)).map (laterI n) := by
  rw [List.filter_map]; rfl

theorem filter_later_S (n : Nat) (f : UID → Bool) (l : List SpikeMessage) :
    (l.map (laterS n)).filter (fun m => f m.header.senderUid) = (l.filter (fun m => f m.header.senderUid)).map (laterS n) := by
  rw [List.filter_map]; rfl

theorem impactsIn_later (n : Nat) (l : List (Message F)) : Sys.impactsIn (l.map (laterM n)) = (Sys.impactsIn l).map (laterI n) := by
  unfold Sys.impactsIn
  rw [List.filterMap_map, List.map_filterMap]
  apply List.filterMap_congr
  intro m _
  cases m <;> rfl

theorem spikesIn_later (n : Nat) (l : List (Message F)) : Sys.spikesIn (l.map (laterM n)) = (Sys.spikesIn l).map (laterS n) := by
  unfold Sys.spikesIn
  rw [List.filterMap_map, List.map_filterMap]
  apply List.filterMap_congr
  intro m _
  cases m <;> rfl

/-- The result of a step or run, `n` steps later. -/
def laterR (n : Nat) : Outcome ((List (Sys.PopSt N F) × List (Sys.ProjSt F)) × List (Sys.StepOut F)) →
    Outcome ((List (Sys.PopSt N F) × List (Sys.ProjSt F)) × List (Sys.StepOut F))
  | .ok (st, os) => .ok ((st.1, st.2.map (laterJ n)), os.map (laterO n))
  | .throw w => .throw w
  | .ub => .ub

theorem flowStep_later (H : Hearing) (n t : Nat) (pops : List (Sys.PopSt N F)) (projs : List (Sys.ProjSt F))
    (hs : ∀ j ∈ projs, Timely (t + n) j.proj) (pending : List (SynapticImpactMessage F)) (ext : List (Message F)) :
    flowStep H (t + n) pops (projs.map (laterJ n)) (pending.map (laterI n)) (ext.map (laterM n)) =
      match flowStep H t pops projs pending ext with
      | .ok (st, o) => .ok ((st.1, st.2.map (laterJ n)), laterO n o)
      | .throw w => .throw w
      | .ub => .ub := by
  unfold flowStep
  simp only [impactsIn_later, spikesIn_later, ← List.map_append, filter_later_I]
  rw [flowPops_later n t (fun r => (pending ++ Sys.impactsIn ext).filter (fun m => H.impact r m.header.senderUid)) _ (fun _ => rfl)]
  cases flowPops t (fun r => (pending ++ Sys.impactsIn ext).filter (fun m => H.impact r m.header.senderUid)) pops with
  | throw w => rfl
  | ub => rfl
  | ok x =>
    obtain ⟨ps', ss⟩ := x
    simp only [← List.map_append, filter_later_S, Outcome.ok.injEq, Prod.mk.injEq, true_and]
    refine ⟨?_, ?_⟩
    · rw [List.map_map, List.map_map]
      apply List.map_congr_left
      intro j hj
      simp only [Function.comp]
      exact congrArg Prod.snd (flowProj_later n t j (hs j hj) _)
    · unfold laterO
      simp only [List.map_map, Sys.StepOut.mk.injEq]
      refine ⟨rfl, trivial, rfl, ?_⟩
      rw [List.flatMap_map, List.map_flatMap, List.flatMap_def, List.flatMap_def]
      congr 1
      apply List.map_congr_left
      intro j hj
      have := congrArg Prod.fst (flowProj_later n t j (hs j hj) ((Sys.spikesIn ext ++ ss).filter
        (fun m => H.spike j.ident.uid m.header.senderUid)))
      dsimp only at this
      show (flowProj (t + n) (laterJ n j) _).1.toList = _
      rw [show (laterJ n j).ident.uid = j.ident.uid from rfl, this]
      cases (flowProj t j ((Sys.spikesIn ext ++ ss).filter (fun m => H.spike j.ident.uid m.header.senderUid))).1 <;> rfl

theorem flowStep_projs {H : Hearing} {t : Nat} {pops : List (Sys.PopSt N F)} {projs : List (Sys.ProjSt F)}
    {pending : List (SynapticImpactMessage F)} {ext : List (Message F)}
    {st : List (Sys.PopSt N F) × List (Sys.ProjSt F)} {o : Sys.StepOut F}
    (h : flowStep H t pops projs pending ext = .ok (st, o)) :
    (∀ u ∈ projs.map (·.ident.uid), o.heard.lookup u = some (heardBy o u)) ∧
    st.2 = projs.map (fun j => (flowProj t j (heardBy o j.ident.uid)).2) ∧
    o.impacts = projs.flatMap (fun j => (flowProj t j (heardBy o j.ident.uid)).1.toList) := by
  unfold flowStep at h
  simp only at h
  cases hfp : flowPops t (fun r => (pending ++ Sys.impactsIn ext).filter (fun m => H.impact r m.header.senderUid)) pops with
  | throw w => rw [hfp] at h; cases h
  | ub => rw [hfp] at h; cases h
  | ok y =>
    obtain ⟨ps', ss⟩ := y
    rw [hfp] at h
    simp only [Outcome.ok.injEq, Prod.mk.injEq] at h
    obtain ⟨h1, h2⟩ := h
    have hl : ∀ u ∈ projs.map (·.ident.uid), o.heard.lookup u =
        some ((Sys.spikesIn ext ++ ss).filter (fun m => H.spike u m.header.senderUid)) := by
      intro u hu
      rw [← h2]
      exact lookup_map (fun j : Sys.ProjSt F => j.ident.uid)
        (fun r => (Sys.spikesIn ext ++ ss).filter (fun m => H.spike r m.header.senderUid)) u projs hu
    have hh : ∀ u ∈ projs.map (·.ident.uid), heardBy o u =
        (Sys.spikesIn ext ++ ss).filter (fun m => H.spike u m.header.senderUid) := by
      intro u hu
      unfold heardBy
      rw [hl u hu]; rfl
    refine ⟨fun u hu => by rw [hh u hu, hl u hu], ?_, ?_⟩
    · rw [← h1]
      apply List.map_congr_left
      intro j hj
      rw [hh _ (List.mem_map.2 ⟨j, hj, rfl⟩)]
    · have himp : o.impacts = projs.flatMap (fun j => (flowProj t j ((Sys.spikesIn ext ++ ss).filter
          (fun m => H.spike j.ident.uid m.header.senderUid))).1.toList) := by rw [← h2]
      rw [himp, List.flatMap_def, List.flatMap_def]
      congr 1
      apply List.map_congr_left
      intro j hj
      rw [hh _ (List.mem_map.2 ⟨j, hj, rfl⟩)]

theorem timely_mono {a b : Nat} (h : a ≤ b) {p : Proj F} (hp : Timely b p) : Timely a p := fun y hy =>
  ⟨(hp y hy).1, by have := (hp y hy).2; omega⟩

theorem flowRun_later (H : Hearing) (n : Nat) : ∀ (exts : List (List (Message F))) (t : Nat) (pops : List (Sys.PopSt N F))
    (projs : List (Sys.ProjSt F)) (pending : List (SynapticImpactMessage F)),
    (∀ j ∈ projs, Timely (t + n + exts.length) j.proj) →
    flowRun H (t + n) pops (projs.map (laterJ n)) (pending.map (laterI n)) (exts.map (·.map (laterM n))) =
      laterR n (flowRun H t pops projs pending exts)
  | [], t, pops, projs, pending, _ => rfl
  | ext :: exts, t, pops, projs, pending, hs => by
    rw [List.map_cons]
    unfold flowRun
    rw [flowStep_later H n t pops projs (fun j hj => timely_mono (by omega) (hs j hj))]
    cases hf : flowStep H t pops projs pending ext with
    | throw w => rfl
    | ub => rfl
    | ok x =>
      obtain ⟨st, o⟩ := x
      dsimp only
      have hst := (flowStep_projs hf).2.1
      have hs' : ∀ j ∈ st.2, Timely (t + 1 + n + exts.length) j.proj := by
        intro j hj
        rw [hst] at hj
        obtain ⟨i, hi, rfl⟩ := List.mem_map.1 hj
        refine timely_mono ?_ (hs i hi)
        rw [List.length_cons]; omega
      have ih := flowRun_later H n exts (t + 1) st.1 st.2 o.impacts hs'
      rw [show t + n + 1 = t + 1 + n by omega]
      show (match flowRun H (t + 1 + n) st.1 (st.2.map (laterJ n)) (o.impacts.map (laterI n)) _ with
        | .ok (st', os) => _ | .throw w => _ | .ub => _) = _
      rw [ih]
      cases flowRun H (t + 1) st.1 st.2 o.impacts exts with
      | throw w => rfl
      | ub => rfl
      | ok y => obtain ⟨st', os⟩ := y; rfl

/-! ## A run in two parts -/

/-- The impacts on their way to the populations after a run. -/
def lastImpacts (pending : List (SynapticImpactMessage F)) (os : List (Sys.StepOut F)) : List (SynapticImpactMessage F) :=
  os.foldl (fun _ o => o.impacts) pending

theorem flowRun_append (H : Hearing) (exts2 : List (List (Message F))) : ∀ (exts1 : List (List (Message F))) (t : Nat)
    (pops : List (Sys.PopSt N F)) (projs : List (Sys.ProjSt F)) (pending : List (SynapticImpactMessage F)),
    flowRun H t pops projs pending (exts1 ++ exts2) =
      match flowRun H t pops projs pending exts1 with
      | .ok (st, os) =>
        match flowRun H (t + exts1.length) st.1 st.2 (lastImpacts pending os) exts2 with
        | .ok (st', os') => .ok (st', os ++ os')
        | .throw w => .throw w
        | .ub => .ub
      | .throw w => .throw w
      | .ub => .ub
  | [], t, pops, projs, pending => by
    simp only [List.nil_append, flowRun, List.length_nil, Nat.add_zero, lastImpacts, List.foldl_nil]
    cases flowRun H t pops projs pending exts2 <;> rfl
  | ext :: exts1, t, pops, projs, pending => by
    rw [List.cons_append]
    simp only [flowRun]
    cases hf : flowStep H t pops projs pending ext with
    | throw w => rfl
    | ub => rfl
    | ok x =>
      obtain ⟨st, o⟩ := x
      dsimp only
      rw [flowRun_append H exts2 exts1 (t + 1)]
      cases flowRun H (t + 1) st.1 st.2 o.impacts exts1 with
      | throw w => rfl
      | ub => rfl
      | ok y =>
        obtain ⟨st', os⟩ := y
        dsimp only
        rw [List.length_cons, show t + (exts1.length + 1) = t + 1 + exts1.length by omega]
        rw [show lastImpacts pending (o :: os) = lastImpacts o.impacts os from rfl]
        cases flowRun H (t + 1 + exts1.length) st'.1 st'.2 (lastImpacts o.impacts os) exts2 with
        | throw w => rfl
        | ub => rfl
        | ok z => obtain ⟨a, b⟩ := z; rfl

theorem flowRun_length {H : Hearing} : ∀ (exts : List (List (Message F))) (t : Nat) (pops : List (Sys.PopSt N F))
    (projs : List (Sys.ProjSt F)) (pending : List (SynapticImpactMessage F)) (st : List (Sys.PopSt N F) × List (Sys.ProjSt F))
    (os : List (Sys.StepOut F)), flowRun H t pops projs pending exts = .ok (st, os) → os.length = exts.length
  | [], t, pops, projs, pending, st, os, h => by
    simp only [flowRun, Outcome.ok.injEq, Prod.mk.injEq] at h
    rw [← h.2]; rfl
  | ext :: exts, t, pops, projs, pending, st, os, h => by
    unfold flowRun at h
    cases hf : flowStep H t pops projs pending ext with
    | throw w => rw [hf] at h; cases h
    | ub => rw [hf] at h; cases h
    | ok x =>
      obtain ⟨st1, o⟩ := x
      rw [hf] at h
      dsimp only at h
      cases hr : flowRun H (t + 1) st1.1 st1.2 o.impacts exts with
      | throw w => rw [hr] at h; cases h
      | ub => rw [hr] at h; cases h
      | ok y =>
        obtain ⟨st2, os'⟩ := y
        rw [hr] at h
        simp only [Outcome.ok.injEq, Prod.mk.injEq] at h
        rw [← h.2, List.length_cons, List.length_cons, flowRun_length exts _ _ _ _ _ _ hr]

/-! ## Nothing on its way -/

/-- Every waiting impact message is due at `t` or later, and before the step in front of `n`. -/
def Due (t n : Nat) (q : Queue F) : Prop := ∀ e ∈ q, t ≤ e.1 ∧ e.1 + 1 < n

theorem due_push {t n key : Nat} {mk : SynapticImpact F → SynapticImpactMessage F} {imp : SynapticImpact F}
    (hk : t ≤ key ∧ key + 1 < n) : ∀ (q : Queue F), Due t n q → Due t n (qPush mk key imp q)
  | [], _ => by
    intro e he
    unfold qPush at he
    rw [List.mem_singleton] at he
    rw [he]; exact hk
  | (k, m) :: q, h => by
    unfold qPush
    by_cases hkk : k = key
    · rw [if_pos hkk]
      intro e he
      rcases List.mem_cons.1 he with rfl | he
      · dsimp only; rw [hkk]; exact hk
      · exact h e (List.mem_cons_of_mem _ he)
    · rw [if_neg hkk]
      intro e he
      rcases List.mem_cons.1 he with rfl | he
      · exact h _ (List.mem_cons_self)
      · exact due_push hk q (fun e he => h e (List.mem_cons_of_mem _ he)) e he

/-- Every spike heard in step `t` has arrived before step `n`. -/
def Arrives (t n : Nat) (p : Proj F) (msgs : List SpikeMessage) : Prop :=
  ∀ m ∈ msgs, ∀ a ∈ m.neuronIndexes, ∀ y ∈ p.synapses, y.source = a → t + y.delay < n

theorem due_spike {t n : Nat} {d : Ident} {p : Proj F} (hs : Timely t p) (hf : ExactFind p) (a : Nat)
    (ha : ∀ y ∈ p.synapses, y.source = a → t + y.delay < n) (q : Queue F) (hq : Due t n q) :
    Due t n (pushSpike d p t q a) := by
  unfold pushSpike
  have hmem : ∀ k ∈ p.find a, ∃ s, p.synapses[k]? = some s ∧ s.source = a := fun k hk => ((hf a).2 k).1 hk
  revert hmem
  generalize p.find a = l
  intro hmem
  induction l generalizing q with
  | nil => exact hq
  | cons k l ih =>
    rw [List.foldl_cons]
    obtain ⟨s, hk, hsrc⟩ := hmem k (by simp)
    simp only [hk]
    refine ih _ ?_ (fun k hk => hmem k (List.mem_cons_of_mem _ hk))
    have hm := List.mem_of_getElem? hk
    obtain ⟨h1, h2⟩ := hs s hm
    have := ha s hm hsrc
    rw [futureStep_eq _ _ h1 h2]
    exact due_push (by omega) q hq

theorem due_calc {t n : Nat} {d : Ident} {p : Proj F} (hs : Timely t p) (hf : ExactFind p) : ∀ (msgs : List SpikeMessage)
    (q : Queue F), Arrives t n p msgs → Due t n q → Due t n (calcSingle d p t q msgs) := by
  intro msgs
  unfold calcSingle
  induction msgs with
  | nil => intro q _ hq; exact hq
  | cons m ms ih =>
    intro q ha hq
    rw [List.foldl_cons]
    refine ih _ (fun m hm => ha m (List.mem_cons_of_mem _ hm)) ?_
    have h1 := ha m (by simp)
    revert h1
    generalize m.neuronIndexes = l
    intro h1
    clear ih
    induction l generalizing q with
    | nil => exact hq
    | cons a l ih2 =>
      rw [List.foldl_cons]
      exact ih2 _ (due_spike hs hf a (h1 a (by simp)) q hq) (fun a ha => h1 a (List.mem_cons_of_mem _ ha))

/-- One step keeps what is due in bounds; a message is sent only if it is due before the step in front of `n`. -/
theorem due_step {t n : Nat} {j : Sys.ProjSt F} (hs : Timely t j.proj) (hf : ExactFind j.proj) {msgs : List SpikeMessage}
    (ha : Arrives t n j.proj msgs) (hq : Due t n j.queue) :
    Due (t + 1) n (flowProj t j msgs).2.queue ∧ ((flowProj t j msgs).1.isSome = true → t + 1 < n) := by
  have hc := due_calc (d := j.ident) hs hf msgs j.queue ha hq
  unfold flowProj Delta.stepSingle
  dsimp only
  cases hk : qFind (calcSingle j.ident j.proj t j.queue msgs) t with
  | none =>
    refine ⟨?_, by simp⟩
    intro e he
    have hb := hc e he
    have : e.1 ≠ t := by
      intro het
      unfold qFind at hk
      rw [Option.map_eq_none_iff, List.find?_eq_none] at hk
      exact hk e he (by simp [het])
    omega
  | some m =>
    refine ⟨?_, ?_⟩
    · intro e he
      unfold qErase at he
      rw [List.mem_filter] at he
      have hb := hc e he.1
      have : e.1 ≠ t := by simpa using he.2
      omega
    · intro _
      unfold qFind at hk
      rw [Option.map_eq_some_iff] at hk
      obtain ⟨e, he, _⟩ := hk
      have h1 := List.mem_of_find?_eq_some he
      have h2 := List.find?_some he
      have hb := hc e h1
      have : e.1 = t := by simpa using h2
      omega

/-- After a run all of whose spikes have arrived nothing waits and nothing is on its way. -/
theorem run_empty {H : Hearing} (n : Nat) : ∀ (exts : List (List (Message F))) (t : Nat) (pops : List (Sys.PopSt N F))
    (projs : List (Sys.ProjSt F)) (pending : List (SynapticImpactMessage F)) (st : List (Sys.PopSt N F) × List (Sys.ProjSt F))
    (os : List (Sys.StepOut F)), flowRun H t pops projs pending exts = .ok (st, os) → t + exts.length = n →
    (∀ j ∈ projs, Timely n j.proj) → (∀ j ∈ projs, ExactFind j.proj) → (∀ j ∈ projs, Due t n j.queue) →
    (pending ≠ [] → t < n) →
    (∀ i (h : i < os.length), ∀ j ∈ projs, Arrives (t + i) n j.proj (heardBy os[i] j.ident.uid)) →
    lastImpacts pending os = [] ∧ (∀ j ∈ st.2, j.queue = []) ∧
    st.2.map (fun j => (j.ident, j.proj)) = projs.map (fun j => (j.ident, j.proj))
  | [], t, pops, projs, pending, st, os, h, hn, _, _, hdue, hpend, _ => by
    simp only [flowRun, Outcome.ok.injEq, Prod.mk.injEq] at h
    obtain ⟨h1, h2⟩ := h
    subst h1 h2
    simp only [List.length_nil, Nat.add_zero] at hn
    subst hn
    refine ⟨?_, ?_, rfl⟩
    · show pending = []
      cases pending with
      | nil => rfl
      | cons a l => exact absurd (hpend (by simp)) (by omega)
    · intro j hj
      have := hdue j hj
      cases hq : j.queue with
      | nil => rfl
      | cons e l =>
        have := this e (by rw [hq]; simp)
        omega
  | ext :: exts, t, pops, projs, pending, st, os, h, hn, hs, hf, hdue, hpend, harr => by
    unfold flowRun at h
    cases hfs : flowStep H t pops projs pending ext with
    | throw w => rw [hfs] at h; cases h
    | ub => rw [hfs] at h; cases h
    | ok x =>
      obtain ⟨st1, o⟩ := x
      rw [hfs] at h
      dsimp only at h
      cases hr : flowRun H (t + 1) st1.1 st1.2 o.impacts exts with
      | throw w => rw [hr] at h; cases h
      | ub => rw [hr] at h; cases h
      | ok y =>
        obtain ⟨st2, os'⟩ := y
        rw [hr] at h
        simp only [Outcome.ok.injEq, Prod.mk.injEq] at h
        obtain ⟨h1, h2⟩ := h
        subst h1 h2
        rw [List.length_cons] at hn
        obtain ⟨_, hst, himp⟩ := flowStep_projs hfs
        have hstep : ∀ j ∈ projs, Due (t + 1) n (flowProj t j (heardBy o j.ident.uid)).2.queue ∧
            ((flowProj t j (heardBy o j.ident.uid)).1.isSome = true → t + 1 < n) := fun j hj =>
          due_step (timely_mono (by omega) (hs j hj)) (hf j hj) (harr 0 (by simp) j hj) (hdue j hj)
        have back : ∀ j ∈ st1.2, ∃ i ∈ projs, j = (flowProj t i (heardBy o i.ident.uid)).2 := by
          intro j hj
          rw [hst] at hj
          obtain ⟨i, hi, rfl⟩ := List.mem_map.1 hj
          exact ⟨i, hi, rfl⟩
        have := run_empty n exts (t + 1) st1.1 st1.2 o.impacts st2 os' hr (by omega)
          (fun j hj => by obtain ⟨i, hi, rfl⟩ := back j hj; exact hs i hi)
          (fun j hj => by obtain ⟨i, hi, rfl⟩ := back j hj; exact hf i hi)
          (fun j hj => by obtain ⟨i, hi, rfl⟩ := back j hj; exact (hstep i hi).1)
          (by
            intro hne
            rw [himp] at hne
            obtain ⟨m, hm⟩ := List.exists_mem_of_ne_nil _ hne
            obtain ⟨j, hj, hmj⟩ := List.mem_flatMap.1 hm
            refine (hstep j hj).2 ?_
            cases hx : (flowProj t j (heardBy o j.ident.uid)).1 with
            | none => rw [hx] at hmj; simp at hmj
            | some _ => rfl)
          (fun i hi j hj => by
            obtain ⟨k, hk, rfl⟩ := back j hj
            have := harr (i + 1) (by rw [List.length_cons]; omega) k hk
            rw [show t + 1 + i = t + (i + 1) by omega]
            exact this)
        refine ⟨this.1, this.2.1, ?_⟩
        rw [this.2.2, hst, List.map_map]
        rfl

end Knp.Lemmas.Resume
