import Verif.Spec.LearnAgree
import Verif.Lemmas.LearnMulti
import Verif.Lemmas.LearnResource
import Verif.Lemmas.TrainOrder

/-! # Lemmas: two runs of a learning network that differ in schedules, parts or backend -/

namespace Knp.Learn
open Knp Knp.Bus Knp.Spec Knp.Neurons Knp.Sys Knp.Stdp Knp.Lemmas.Stdp Knp.Props

variable {N B F : Type}

/-! ## Computing populations -/

/-- A population step without training, on one thread. -/
def computeS (t : Nat) (p : Pop N B F) (ms : List (SynapticImpactMessage F)) : Outcome (Pop N B F × Option SpikeMessage) :=
  match p with
  | .plain u k ns => computed (.plain u k) (stepPopulation k u t ns ms)
  | .trained u k b ns => computed (.trained u k b) (stepPopulation k u t ns ms)

/-- Number of neurons. -/
def Pop.size : Pop N B F → Nat
  | .plain _ _ ns => ns.length
  | .trained _ _ _ ns => ns.length

/-- Outcomes that differ at most in the order of spikes. -/
def Near : Outcome (Pop N B F × Option SpikeMessage) → Outcome (Pop N B F × Option SpikeMessage) → Prop
  | .ok a, .ok b => a.1 = b.1 ∧ SameSpikes a.2 b.2
  | .throw w, .throw w' => w = w'
  | .ub, .ub => True
  | _, _ => False

theorem computeM_near (c : Config F) (hc : 1 ≤ c.popPart ∧ c.popPart < two64) (t : Nat) (p : Pop N B F)
    (hp : p.size ≤ 2 ^ 63) (ms : List (SynapticImpactMessage F)) (sc : List Nat × List Nat)
    (r : Outcome (Pop N B F × Option SpikeMessage)) (h : computeM c t p ms sc = some r) : Near r (computeS t p ms) := by
  cases p with
  | plain u k ns =>
    unfold computeM at h
    simp only [Option.map_eq_some_iff] at h
    obtain ⟨x, h1, rfl⟩ := h
    have h47 := C47_schedule_independent k u t c.popPart ns ms sc.1 sc.2 x hc.1 hc.2 hp h1
    unfold computeS
    simp only
    cases hs : stepPopulation k u t ns ms <;> rw [hs] at h47 <;> cases x <;> simp only at h47
    · exact ⟨by rw [h47.1], h47.2⟩
    · exact h47
    · trivial
  | trained u k b ns =>
    unfold computeM at h
    simp only [Option.map_eq_some_iff] at h
    obtain ⟨x, h1, rfl⟩ := h
    have h47 := C47_schedule_independent k u t c.popPart ns ms sc.1 sc.2 x hc.1 hc.2 hp h1
    unfold computeS
    simp only
    cases hs : stepPopulation k u t ns ms <;> rw [hs] at h47 <;> cases x <;> simp only at h47
    · exact ⟨by rw [h47.1], h47.2⟩
    · exact h47
    · trivial

theorem computeS_perm (t : Nat) (p : Pop N B F) (hp : OrderFree p) {ms ms' : List (SynapticImpactMessage F)}
    (hm : List.Forall₂ SameImpactMsg ms ms') (hb : ∀ m ∈ ms, ∀ i ∈ m.impacts, i.synapseType ≠ .blocking)
    (r : Pop N B F × Option SpikeMessage) (h : computeS t p ms = .ok r) : computeS t p ms' = .ok r := by
  cases p with
  | plain u k ns =>
    unfold computeS at h ⊢
    simp only at h ⊢
    cases hs : stepPopulation k u t ns ms with
    | throw w => rw [hs] at h; cases h
    | ub => rw [hs] at h; cases h
    | ok x => rw [hs] at h; rw [step_perm k hp.1 u t ns hm hb x hs]; exact h
  | trained u k b ns =>
    unfold computeS at h ⊢
    simp only at h ⊢
    cases hs : stepPopulation k u t ns ms with
    | throw w => rw [hs] at h; cases h
    | ub => rw [hs] at h; cases h
    | ok x => rw [hs] at h; rw [step_perm k hp.1 u t ns hm hb x hs]; exact h

/-- The spikes are neurons of the population, each at most once. -/
def Fine (p : Pop N B F) (s : Option SpikeMessage) : Prop := (spikedIn s).Nodup ∧ ∀ i ∈ spikedIn s, i < p.size

theorem step_fine {A : Type} (k : Kind A F) (u : UID) (t : Nat) (ns ns' : List A) (ms : List (SynapticImpactMessage F))
    (s : Option SpikeMessage) (h : stepPopulation k u t ns ms = .ok (ns', s)) :
    ns'.length = ns.length ∧ (spikedIn s).Nodup ∧ ∀ i ∈ spikedIn s, i < ns'.length := by
  obtain ⟨h1, spiked, _, _, h4⟩ := C55_each_neuron k u t ns ns' ms s h
  refine ⟨h1, ?_⟩
  rw [h4, h1]
  split
  · exact ⟨List.nodup_nil, fun i hi => by simp [spikedIn] at hi⟩
  · unfold spikedIn
    simp only
    exact ⟨List.nodup_range.filter _, fun i hi => List.mem_range.1 (List.mem_of_mem_filter hi)⟩

theorem computeS_facts (t : Nat) (p p1 : Pop N B F) (ms : List (SynapticImpactMessage F)) (s : Option SpikeMessage)
    (h : computeS t p ms = .ok (p1, s)) : p1.uid = p.uid ∧ p1.size = p.size ∧ (OrderFree p → OrderFree p1) ∧ Fine p1 s := by
  cases p with
  | plain u k ns =>
    unfold computeS at h
    simp only at h
    cases hs : stepPopulation k u t ns ms with
    | throw w => rw [hs] at h; cases h
    | ub => rw [hs] at h; cases h
    | ok x =>
      rw [hs] at h
      simp only [computed, Outcome.ok.injEq, Prod.mk.injEq] at h
      obtain ⟨rfl, rfl⟩ := h
      obtain ⟨e1, e2, e3⟩ := step_fine k u t ns x.1 ms x.2 hs
      exact ⟨rfl, e1, fun ho => ⟨ho.1, e1 ▸ ho.2⟩, e2, e3⟩
  | trained u k b ns =>
    unfold computeS at h
    simp only at h
    cases hs : stepPopulation k u t ns ms with
    | throw w => rw [hs] at h; cases h
    | ub => rw [hs] at h; cases h
    | ok x =>
      rw [hs] at h
      simp only [computed, Outcome.ok.injEq, Prod.mk.injEq] at h
      obtain ⟨rfl, rfl⟩ := h
      obtain ⟨e1, e2, e3⟩ := step_fine k u t ns x.1 ms x.2 hs
      exact ⟨rfl, e1, fun ho => ⟨ho.1, e1 ▸ ho.2⟩, e2, e3⟩

/-- All populations, on one thread, without training. -/
def computeAllS (t : Nat) (given : UID → List (SynapticImpactMessage F)) : List (Pop N B F) →
    Outcome (List (Pop N B F) × List (Option SpikeMessage))
  | [] => .ok ([], [])
  | p :: ps =>
    match computeS t p (given p.uid) with
    | .throw w => .throw w
    | .ub => .ub
    | .ok r =>
      match computeAllS t given ps with
      | .throw w => .throw w
      | .ub => .ub
      | .ok (ps', ss) => .ok (r.1 :: ps', r.2 :: ss)

theorem computeAllS_cons {t : Nat} {given : UID → List (SynapticImpactMessage F)} {p : Pop N B F} {ps : List (Pop N B F)}
    {x : List (Pop N B F) × List (Option SpikeMessage)} (h : computeAllS t given (p :: ps) = .ok x) :
    ∃ (r : Pop N B F × Option SpikeMessage) (ps' : List (Pop N B F)) (ss : List (Option SpikeMessage)),
      computeS t p (given p.uid) = .ok r ∧ computeAllS t given ps = .ok (ps', ss) ∧ x = (r.1 :: ps', r.2 :: ss) := by
  rw [computeAllS] at h
  cases h1 : computeS t p (given p.uid) with
  | throw w => rw [h1] at h; cases h
  | ub => rw [h1] at h; cases h
  | ok r =>
    rw [h1] at h
    simp only at h
    cases h2 : computeAllS t given ps with
    | throw w => rw [h2] at h; cases h
    | ub => rw [h2] at h; cases h
    | ok y =>
      rw [h2] at h
      obtain ⟨ps', ss⟩ := y
      simp only [Outcome.ok.injEq] at h
      exact ⟨r, ps', ss, rfl, rfl, h.symm⟩

theorem computeAllS_facts (t : Nat) (given : UID → List (SynapticImpactMessage F)) : ∀ (ps ps1 : List (Pop N B F))
    (ss : List (Option SpikeMessage)), computeAllS t given ps = .ok (ps1, ss) →
    ps1.map Pop.uid = ps.map Pop.uid ∧ ((∀ p ∈ ps, OrderFree p) → ∀ p ∈ ps1, OrderFree p) ∧ List.Forall₂ Fine ps1 ss := by
  intro ps
  induction ps with
  | nil => intro ps1 ss h; cases h; exact ⟨rfl, fun h => h, .nil⟩
  | cons p ps ih =>
    intro ps1 ss h
    obtain ⟨r, ps', ss', h1, h2, h3⟩ := computeAllS_cons h
    cases h3
    obtain ⟨i1, i2, i3⟩ := ih ps' ss' h2
    obtain ⟨f1, _, f3, f4⟩ := computeS_facts t p r.1 _ r.2 h1
    refine ⟨by rw [List.map_cons, List.map_cons, i1, f1], ?_, .cons f4 i3⟩
    intro ha q hq
    rcases List.mem_cons.1 hq with rfl | hq
    · exact f3 (ha p (by simp))
    · exact i2 (fun x hx => ha x (by simp [hx])) q hq

theorem computeAllS_perm (t : Nat) (given given' : UID → List (SynapticImpactMessage F)) : ∀ (ps : List (Pop N B F))
    (r : List (Pop N B F) × List (Option SpikeMessage)),
    (∀ p ∈ ps, OrderFree p ∧ List.Forall₂ SameImpactMsg (given p.uid) (given' p.uid) ∧
      ∀ m ∈ given p.uid, ∀ i ∈ m.impacts, i.synapseType ≠ .blocking) →
    computeAllS t given ps = .ok r → computeAllS t given' ps = .ok r := by
  intro ps
  induction ps with
  | nil => intro r _ h; exact h
  | cons p ps ih =>
    intro r hall h
    obtain ⟨x, ps', ss', h1, h2, h3⟩ := computeAllS_cons h
    obtain ⟨a, b, c⟩ := hall p (by simp)
    rw [computeAllS, computeS_perm t p a b c x h1, ih _ (fun q hq => hall q (by simp [hq])) h2, h3]

variable [Field F] [LinearOrder F]

theorem computeAll_to (o : Ops F) (c : Config F) (hc : 1 ≤ c.popPart ∧ c.popPart < two64) (t : Nat)
    (given : UID → List (SynapticImpactMessage F)) : ∀ (ps : List (Pop N B F)) (scs : List (List Nat × List Nat))
    (ps1 : List (Pop N B F)) (ss : List (Option SpikeMessage)), (∀ p ∈ ps, p.size ≤ 2 ^ 63) →
    computeAll (machine o) (threads o c) t given ps scs = some (.ok (ps1, ss)) →
    ∃ ss', computeAllS t given ps = .ok (ps1, ss') ∧ List.Forall₂ SameSpikes ss ss' := by
  intro ps
  induction ps with
  | nil =>
    intro scs ps1 ss _ h
    cases scs with
    | nil => cases h; exact ⟨[], rfl, .nil⟩
    | cons => cases h
  | cons p ps ih =>
    intro scs ps1 ss hs h
    cases scs with
    | nil => cases h
    | cons sc scs =>
      rw [computeAll] at h
      rcases h1 : computeM c t p (given p.uid) sc with _ | (r | w | _)
      all_goals
        have h1' : (threads (N := N) (B := B) o c).compute t p (given ((machine o).popUid p)) sc = _ := h1
        rw [h1'] at h
        simp only at h
      · cases h
      · rcases h2 : computeAll (machine o) (threads o c) t given ps scs with _ | (y | w | _)
        all_goals rw [h2] at h; simp only at h
        · cases h
        · obtain ⟨ps2, ss2⟩ := y
          simp only [Option.some.injEq, Outcome.ok.injEq, Prod.mk.injEq] at h
          obtain ⟨ss', e1, e2⟩ := ih scs ps2 ss2 (fun q hq => hs q (by simp [hq])) h2
          have hn := computeM_near c hc t p (hs p (by simp)) _ _ _ h1
          cases h3 : computeS t p (given p.uid) with
          | throw w => rw [h3] at hn; exact hn.elim
          | ub => rw [h3] at hn; exact hn.elim
          | ok x =>
            rw [h3] at hn
            refine ⟨x.2 :: ss', ?_, ?_⟩
            · rw [computeAllS, h3, e1]
              simp only
              rw [← h.1, hn.1]
            · rw [← h.2]; exact .cons hn.2 e2
        · cases h
        · cases h
      · cases h
      · cases h

theorem computeAll_from (o : Ops F) (c : Config F) (hc : 1 ≤ c.popPart ∧ c.popPart < two64) (t : Nat)
    (given : UID → List (SynapticImpactMessage F)) : ∀ (ps : List (Pop N B F)) (scs : List (List Nat × List Nat))
    (ps1 : List (Pop N B F)) (ss' : List (Option SpikeMessage)) (r : Outcome (List (Pop N B F) × List (Option SpikeMessage))),
    (∀ p ∈ ps, p.size ≤ 2 ^ 63) → computeAllS t given ps = .ok (ps1, ss') →
    computeAll (machine o) (threads o c) t given ps scs = some r →
    ∃ ss, r = .ok (ps1, ss) ∧ List.Forall₂ SameSpikes ss ss' := by
  intro ps
  induction ps with
  | nil =>
    intro scs ps1 ss' r _ h1 h
    cases h1
    cases scs with
    | nil => cases h; exact ⟨[], rfl, .nil⟩
    | cons => cases h
  | cons p ps ih =>
    intro scs ps1 ss' r hs h0 h
    obtain ⟨x, ps', ss2, g1, g2, g3⟩ := computeAllS_cons h0
    cases g3
    cases scs with
    | nil => cases h
    | cons sc scs =>
      rw [computeAll] at h
      rcases h1 : computeM c t p (given p.uid) sc with _ | r1
      all_goals
        have h1' : (threads (N := N) (B := B) o c).compute t p (given ((machine o).popUid p)) sc = _ := h1
        rw [h1'] at h
        try simp only at h
      · cases h
      · have hn := computeM_near c hc t p (hs p (by simp)) _ _ _ h1
        rw [g1] at hn
        cases r1 with
        | throw w => exact hn.elim
        | ub => exact hn.elim
        | ok z =>
          simp only at h
          cases h2 : computeAll (machine o) (threads o c) t given ps scs with
          | none => rw [h2] at h; cases h
          | some r2 =>
            obtain ⟨ss, e1, e2⟩ := ih scs ps' ss2 r2 (fun q hq => hs q (by simp [hq])) g2 h2
            rw [h2, e1] at h
            simp only [Option.some.injEq] at h
            refine ⟨z.2 :: ss, ?_, .cons hn.2 e2⟩
            rw [← h, hn.1]

/-! ## Training -/

/-- Projections that differ at most in the order of the impacts that wait from step `t` on. -/
structure SameProjL (t : Nat) (a b : Proj F) : Prop where
  ident : a.ident = b.ident
  locked : a.locked = b.locked
  syns : a.syns = b.syns
  queue : ∀ due, t ≤ due → SameImpacts (Delta.qFind a.queue due) (Delta.qFind b.queue due)

omit [Field F] [LinearOrder F] in
theorem SameProjL.refl (t : Nat) (a : Proj F) : SameProjL t a a :=
  ⟨rfl, rfl, rfl, fun _ _ => ⟨List.Perm.refl _, rfl, rfl⟩⟩

omit [Field F] [LinearOrder F] in
theorem SameProjL.toR {t : Nat} {a b : Proj F} (h : SameProjL t a b) : a.toR = b.toR := by
  unfold Proj.toR
  rw [h.syns, h.ident, h.locked]

omit [Field F] [LinearOrder F] in
theorem SameProjL.put {t : Nat} {a b : Proj F} (h : SameProjL t a b) (r : RProj F) : SameProjL t (a.putR r) (b.putR r) := by
  unfold Proj.putR
  rw [h.syns]
  cases hs : b.syns with
  | delta p => exact h
  | additive _ _ _ _ => exact h
  | resource pops ss pre post => exact ⟨h.ident, h.locked, rfl, h.queue⟩

omit [Field F] [LinearOrder F] in
theorem all_toR {t : Nat} {js js' : List (Proj F)} (h : List.Forall₂ (SameProjL t) js js') : js.map Proj.toR = js'.map Proj.toR := by
  induction h with
  | nil => rfl
  | cons h _ ih => rw [List.map_cons, List.map_cons, h.toR, ih]

omit [Field F] [LinearOrder F] in
theorem all_put {t : Nat} {js js' : List (Proj F)} (h : List.Forall₂ (SameProjL t) js js') : ∀ rs : List (RProj F),
    List.Forall₂ (SameProjL t) (putAll js rs) (putAll js' rs) := by
  induction h with
  | nil => intro rs; exact .nil
  | cons h _ ih =>
    intro rs
    cases rs with
    | nil => exact .nil
    | cons r rs => exact .cons (h.put r) (ih rs)

omit [Field F] [LinearOrder F] in
theorem putR_putR (j : Proj F) (r r' : RProj F) : (j.putR r).putR r' = j.putR r' := by
  cases hs : j.syns with
  | delta p => simp only [Proj.putR, hs]
  | additive _ _ _ _ => simp only [Proj.putR, hs]
  | resource pops ss pre post => simp only [Proj.putR, hs]

omit [Field F] [LinearOrder F] in
theorem putAll_putAll : ∀ (js : List (Proj F)) (rs rs' : List (RProj F)), rs.length = js.length →
    putAll (putAll js rs) rs' = putAll js rs' := by
  intro js
  induction js with
  | nil => intro rs rs' _; rfl
  | cons j js ih =>
    intro rs rs' hl
    cases rs with
    | nil => cases hl
    | cons r rs =>
      cases rs' with
      | nil => rfl
      | cons r' rs' =>
        have := ih rs rs' (Nat.succ.inj hl)
        unfold putAll at this ⊢
        simp only [List.zipWith_cons_cons, this, putR_putR]

/-- What a training task keeps. -/
theorem trainM_facts {o : Ops F} {t : Nat} {p p1 : Pop N B F} {js js1 : List (Proj F)} {s : Option SpikeMessage}
    (h : trainM o t p js s = .ok (p1, js1)) : p1.uid = p.uid ∧ p1.size = p.size ∧ (OrderFree p → OrderFree p1) ∧
      AllTrained o js js1 ∧ ((∀ r ∈ js.map Proj.toR, FindOk r) → ∀ r ∈ js1.map Proj.toR, FindOk r) := by
  cases p with
  | plain u k ns =>
    simp only [trainM, Outcome.ok.injEq, Prod.mk.injEq] at h
    rw [← h.1, ← h.2]
    exact ⟨rfl, rfl, id, AllTrained.refl o js, id⟩
  | trained u k b ns =>
    simp only [trainM] at h
    cases ht : train o b u (spikedIn s) t ⟨ns, js.map Proj.toR⟩ with
    | throw w => rw [ht] at h; cases h
    | ub => rw [ht] at h; cases h
    | ok st =>
      rw [ht] at h
      simp only [Outcome.ok.injEq, Prod.mk.injEq] at h
      rw [← h.1, ← h.2]
      have hl : st.neurons.length = ns.length := (train_frame ht).2.2.2
      obtain ⟨a1, a2⟩ := putAll_trained ht
      refine ⟨rfl, hl, fun ho => ⟨ho.1, hl ▸ ho.2⟩, a1, fun hf => ?_⟩
      rw [a2]
      exact train_findOk ht hf

/-- The order of the spikes does not matter to a training task. -/
theorem trainM_spikes (o : Ops F) (t : Nat) (p : Pop N B F) (js : List (Proj F)) (s s' : Option SpikeMessage)
    (hs : SameSpikes s s') (hf : Fine p s) (hfind : ∀ r ∈ js.map Proj.toR, FindOk r) : trainM o t p js s = trainM o t p js s' := by
  cases p with
  | plain u k ns => rfl
  | trained u k b ns =>
    simp only [trainM]
    have hp : (spikedIn s).Perm (spikedIn s') := by
      rcases hs with ⟨rfl, rfl⟩ | ⟨x, y, rfl, rfl, _, h2⟩
      · exact List.Perm.refl _
      · exact h2
    rw [train_perm o b u hp hf.1 t ⟨ns, js.map Proj.toR⟩ hfind]

/-- Queues do not matter to a training task. -/
theorem trainM_queues {o : Ops F} {t u : Nat} {p p1 : Pop N B F} {js js' js1 : List (Proj F)} {s : Option SpikeMessage}
    (hr : List.Forall₂ (SameProjL u) js js') (h : trainM o t p js s = .ok (p1, js1)) :
    ∃ js1', trainM o t p js' s = .ok (p1, js1') ∧ List.Forall₂ (SameProjL u) js1 js1' := by
  cases p with
  | plain w k ns =>
    simp only [trainM, Outcome.ok.injEq, Prod.mk.injEq] at h ⊢
    exact ⟨js', ⟨h.1, rfl⟩, h.2 ▸ hr⟩
  | trained w k b ns =>
    simp only [trainM] at h ⊢
    rw [← all_toR hr]
    cases ht : train o b w (spikedIn s) t ⟨ns, js.map Proj.toR⟩ with
    | throw w => rw [ht] at h; cases h
    | ub => rw [ht] at h; cases h
    | ok st =>
      rw [ht] at h
      simp only [Outcome.ok.injEq, Prod.mk.injEq] at h ⊢
      exact ⟨_, ⟨h.1, rfl⟩, h.2 ▸ all_put hr st.projs⟩

/-- What the training tasks rely on. -/
structure Ready (ss : List (Option SpikeMessage)) (st : List (Pop N B F) × List (Proj F)) : Prop where
  nodup : (st.1.map Pop.uid).Nodup
  fine : List.Forall₂ Fine st.1 ss
  find : ∀ r ∈ st.2.map Proj.toR, FindOk r

omit [Field F] [LinearOrder F] in
theorem forall₂_get {α β : Type} {R : α → β → Prop} {l : List α} {l' : List β} (h : List.Forall₂ R l l') :
    ∀ (k : Nat) (x : α) (y : β), l[k]? = some x → l'[k]? = some y → R x y := by
  induction h with
  | nil => intro k x y h; simp at h
  | cons h _ ih =>
    intro k x y hx hy
    cases k with
    | zero => simp only [List.getElem?_cons_zero, Option.some.injEq] at hx hy; rw [← hx, ← hy]; exact h
    | succ k => simp only [List.getElem?_cons_succ] at hx hy; exact ih k x y hx hy

omit [Field F] [LinearOrder F] in
theorem forall₂_set {α β : Type} {R : α → β → Prop} {l : List α} {l' : List β} (h : List.Forall₂ R l l') :
    ∀ (k : Nat) (x x' : α), l[k]? = some x → (∀ y, R x y → R x' y) → List.Forall₂ R (l.set k x') l' := by
  induction h with
  | nil => intro k x x' h; simp at h
  | cons h hs ih =>
    intro k x x' hx hr
    cases k with
    | zero =>
      simp only [List.getElem?_cons_zero, Option.some.injEq] at hx
      subst hx
      exact .cons (hr _ h) hs
    | succ k => exact .cons h (ih k x x' (by simpa using hx) hr)

theorem map_set_uid {l : List (Pop N B F)} {k : Nat} {p p1 : Pop N B F} (hp : l[k]? = some p) (hu : p1.uid = p.uid) :
    (l.set k p1).map Pop.uid = l.map Pop.uid := by
  apply List.ext_getElem?
  intro n
  rw [List.getElem?_map, List.getElem?_map]
  by_cases hn : k = n
  · subst hn
    rw [List.getElem?_set_self (List.getElem?_eq_some_iff.1 hp).1, hp, Option.map_some, Option.map_some, hu]
  · rw [List.getElem?_set_ne hn]

/-- One training task, as an equation. -/
theorem trainTask_eq (o : Ops F) (c : Config F) (t : Nat) (ss : List (Option SpikeMessage))
    (st : List (Pop N B F) × List (Proj F)) (k : Nat) (p : Pop N B F) (s : Option SpikeMessage) (hp : st.1[k]? = some p)
    (hs : ss[k]? = some s) : trainTask (threads o c) t ss st k =
      (trainM o t p st.2 s).bind (fun r => .ok (st.1.set k r.1, r.2)) := by
  unfold trainTask
  rw [hp, hs]
  simp only
  have : (threads (N := N) (B := B) o c).train t p st.2 s = trainM o t p st.2 s := rfl
  rw [this]
  cases trainM o t p st.2 s <;> rfl

theorem trainTask_none (th : Threads (Pop N B F) (Proj F) F) (t : Nat) (ss : List (Option SpikeMessage))
    (st : List (Pop N B F) × List (Proj F)) (k : Nat) (h : st.1[k]? = none ∨ ss[k]? = none) :
    trainTask th t ss st k = .ok st := by
  unfold trainTask
  rcases h with h | h
  · rw [h]
  · rw [h]; cases st.1[k]? <;> rfl

theorem trainTask_ready {o : Ops F} {c : Config F} {t : Nat} {ss : List (Option SpikeMessage)}
    {st st' : List (Pop N B F) × List (Proj F)} {k : Nat} (hr : Ready ss st)
    (h : trainTask (threads o c) t ss st k = .ok st') :
    Ready ss st' ∧ AllTrained o st.2 st'.2 ∧ ((∀ p ∈ st.1, OrderFree p) → ∀ p ∈ st'.1, OrderFree p) := by
  cases hp : st.1[k]? with
  | none =>
    rw [trainTask_none _ _ _ _ _ (Or.inl hp)] at h
    cases h
    exact ⟨hr, AllTrained.refl o _, id⟩
  | some p =>
    cases hs : ss[k]? with
    | none =>
      rw [trainTask_none _ _ _ _ _ (Or.inr hs)] at h
      cases h
      exact ⟨hr, AllTrained.refl o _, id⟩
    | some s =>
      rw [trainTask_eq o c t ss st k p s hp hs] at h
      obtain ⟨r, h1, h2⟩ := obindE _ _ _ h
      cases h2
      obtain ⟨f1, f2, f3, f4, f5⟩ := trainM_facts h1
      refine ⟨⟨?_, ?_, f5 hr.find⟩, f4, ?_⟩
      · show ((st.1.set k r.1).map Pop.uid).Nodup
        rw [map_set_uid hp f1]; exact hr.nodup
      · exact forall₂_set hr.fine k p r.1 hp (fun y hy => ⟨hy.1, fun i hi => f2 ▸ hy.2 i hi⟩)
      · intro ha q hq
        rcases List.mem_or_eq_of_mem_set hq with hq | rfl
        · exact ha q hq
        · exact f3 (ha p (List.mem_of_getElem? hp))

theorem tasks_ready {o : Ops F} {c : Config F} {t : Nat} {ss : List (Option SpikeMessage)} : ∀ (l : List Nat)
    (st st' : List (Pop N B F) × List (Proj F)), Ready ss st → l.foldlM (trainTask (threads o c) t ss) st = .ok st' →
    Ready ss st' ∧ AllTrained o st.2 st'.2 ∧ ((∀ p ∈ st.1, OrderFree p) → ∀ p ∈ st'.1, OrderFree p) := by
  intro l
  induction l with
  | nil => intro st st' hr h; cases h; exact ⟨hr, AllTrained.refl o _, id⟩
  | cons k l ih =>
    intro st st' hr h
    rw [List.foldlM_cons] at h
    obtain ⟨x, h1, h2⟩ := obindE _ _ _ h
    obtain ⟨a1, a2, a3⟩ := trainTask_ready hr h1
    obtain ⟨b1, b2, b3⟩ := ih x st' a1 h2
    exact ⟨b1, a2.trans b2, fun ha => b3 (a3 ha)⟩

/-- Two training tasks may be exchanged. -/
theorem trainTask_swap (o : Ops F) (c : Config F) (t : Nat) (ss : List (Option SpikeMessage))
    (st : List (Pop N B F) × List (Proj F)) (hr : Ready ss st) (x y : Nat) (hxy : x ≠ y) :
    (trainTask (threads o c) t ss st x).bind (fun s => trainTask (threads o c) t ss s y) =
      (trainTask (threads o c) t ss st y).bind (fun s => trainTask (threads o c) t ss s x) := by
  obtain ⟨ps, js⟩ := st
  have skip : ∀ (x y : Nat), x ≠ y → (ps[x]? = none ∨ ss[x]? = none ∨ ∃ u k ns, ps[x]? = some (.plain u k ns)) →
      (trainTask (threads o c) t ss (ps, js) x).bind (fun s => trainTask (threads o c) t ss s y) =
      (trainTask (threads o c) t ss (ps, js) y).bind (fun s => trainTask (threads o c) t ss s x) := by
    intro x y hxy hx
    have hid : ∀ (qs : List (Pop N B F)) (ks : List (Proj F)), qs[x]? = ps[x]? → trainTask (threads o c) t ss (qs, ks) x = .ok (qs, ks) := by
      intro qs ks hq
      rcases hx with hx | hx | ⟨u, k, ns, hx⟩
      · exact trainTask_none _ _ _ _ _ (Or.inl (hq.trans hx))
      · exact trainTask_none _ _ _ _ _ (Or.inr hx)
      · cases hs : ss[x]? with
        | none => exact trainTask_none _ _ _ _ _ (Or.inr hs)
        | some s =>
          have hq' := hq.trans hx
          rw [trainTask_eq o c t ss (qs, ks) x (.plain u k ns) s hq' hs]
          simp only [trainM, Outcome.bind]
          have : qs.set x (.plain u k ns) = qs := by
            apply List.ext_getElem?
            intro n
            by_cases hn : x = n
            · subst hn
              rw [List.getElem?_set_self (List.getElem?_eq_some_iff.1 hq').1, hq']
            · rw [List.getElem?_set_ne hn]
          rw [this]
    rw [hid ps js rfl]
    show trainTask (threads o c) t ss (ps, js) y = _
    cases hz : trainTask (threads o c) t ss (ps, js) y with
    | throw w => rfl
    | ub => rfl
    | ok z =>
      show _ = trainTask (threads o c) t ss z x
      have : z.1[x]? = ps[x]? := by
        cases hp : ps[y]? with
        | none => rw [trainTask_none _ _ _ _ _ (Or.inl hp)] at hz; cases hz; rfl
        | some p =>
          cases hs : ss[y]? with
          | none => rw [trainTask_none _ _ _ _ _ (Or.inr hs)] at hz; cases hz; rfl
          | some s =>
            rw [trainTask_eq o c t ss (ps, js) y p s hp hs] at hz
            obtain ⟨r, _, h2⟩ := obindE _ _ _ hz
            cases h2
            exact List.getElem?_set_ne (fun e => hxy e.symm)
      obtain ⟨z1, z2⟩ := z
      rw [hid z1 z2 this]
  cases hpx : ps[x]? with
  | none => exact skip x y hxy (Or.inl hpx)
  | some p =>
    cases hsx : ss[x]? with
    | none => exact skip x y hxy (Or.inr (Or.inl hsx))
    | some s =>
      cases hpy : ps[y]? with
      | none => exact (skip y x (Ne.symm hxy) (Or.inl hpy)).symm
      | some q =>
        cases hsy : ss[y]? with
        | none => exact (skip y x (Ne.symm hxy) (Or.inr (Or.inl hsy))).symm
        | some s' =>
          have fx := forall₂_get hr.fine x p s hpx hsx
          have fy := forall₂_get hr.fine y q s' hpy hsy
          cases p with
          | plain u k ns => exact skip x y hxy (Or.inr (Or.inr ⟨u, k, ns, hpx⟩))
          | trained u k b ns =>
            cases q with
            | plain u' k' ns' => exact (skip y x (Ne.symm hxy) (Or.inr (Or.inr ⟨u', k', ns', hpy⟩))).symm
            | trained v k' b' ns' =>
              have huv : u ≠ v := by
                intro e
                have h1 : (ps.map Pop.uid)[x]? = some u := by rw [List.getElem?_map, hpx]; rfl
                have h2 : (ps.map Pop.uid)[y]? = some u := by rw [List.getElem?_map, hpy, e]; rfl
                have hlt := (List.getElem?_eq_some_iff.1 h1).1
                exact hxy ((List.getElem?_inj hlt hr.nodup).1 (h1.trans h2.symm))
              obtain ⟨a, a', d, d', e1, e2, e3, e4, n1, n2, n3⟩ := train_swap (o := o) (bo := b) (bo' := b') huv (step := t)
                (ps := js.map Proj.toR) fx.2 fy.2
              have t1 := putAll_trained e1
              have t3 := putAll_trained e3
              have l1 : a.projs.length = js.length := by
                rw [← List.length_map (f := Proj.toR), ← t1.2, List.length_map]
                rw [List.length_map, t1.1.1]
              have l3 : d.projs.length = js.length := by
                rw [← List.length_map (f := Proj.toR), ← t3.2, List.length_map]
                rw [List.length_map, t3.1.1]
              rw [trainTask_eq o c t ss (ps, js) x _ s hpx hsx, trainTask_eq o c t ss (ps, js) y _ s' hpy hsy]
              simp only [trainM]
              rw [e1, e3]
              simp only [Outcome.bind]
              rw [trainTask_eq o c t ss _ y (.trained v k' b' ns') s' (by simp only; rw [List.getElem?_set_ne hxy]; exact hpy) hsy,
                trainTask_eq o c t ss _ x (.trained u k b ns) s (by simp only; rw [List.getElem?_set_ne (Ne.symm hxy)]; exact hpx) hsx]
              simp only [trainM]
              rw [t1.2, t3.2, e2, e4]
              simp only [Outcome.bind]
              rw [putAll_putAll _ _ _ l1, putAll_putAll _ _ _ l3, n1, n2, n3, List.set_comm _ _ hxy]

/-- The order of the training tasks does not matter. -/
theorem tasks_order (o : Ops F) (c : Config F) (t : Nat) (ss : List (Option SpikeMessage)) {l l' : List Nat} (hp : l.Perm l') :
    l.Nodup → ∀ st : List (Pop N B F) × List (Proj F), Ready ss st →
    l.foldlM (trainTask (threads o c) t ss) st = l'.foldlM (trainTask (threads o c) t ss) st := by
  induction hp with
  | nil => intro _ st _; rfl
  | cons x _ ih =>
    intro hn st hr
    rw [List.foldlM_cons, List.foldlM_cons]
    cases h : trainTask (threads o c) t ss st x with
    | throw w => rfl
    | ub => rfl
    | ok st' => exact ih (List.nodup_cons.1 hn).2 st' (trainTask_ready hr h).1
  | swap x y l =>
    intro hn st hr
    have hxy : y ≠ x := by
      intro e
      have := (List.nodup_cons.1 hn).1
      simp [e] at this
    have h := trainTask_swap o c t ss st hr y x hxy
    have h' : (trainTask (threads o c) t ss st y >>= fun s => trainTask (threads o c) t ss s x) =
      (trainTask (threads o c) t ss st x >>= fun s => trainTask (threads o c) t ss s y) := h
    simp only [List.foldlM_cons]
    rw [← bind_assoc, ← bind_assoc, h']
  | trans p1 _ ih1 ih2 =>
    intro hn st hr
    exact (ih1 hn st hr).trans (ih2 (p1.nodup_iff.1 hn) st hr)

omit [Field F] [LinearOrder F] in
theorem Fine.same {p : Pop N B F} {s s' : Option SpikeMessage} (h : Fine p s) (hs : SameSpikes s s') : Fine p s' := by
  have hp : (spikedIn s).Perm (spikedIn s') := by
    rcases hs with ⟨rfl, rfl⟩ | ⟨x, y, rfl, rfl, _, h2⟩
    · exact List.Perm.refl _
    · exact h2
  exact ⟨hp.nodup_iff.1 h.1, fun i hi => h.2 i (hp.mem_iff.2 hi)⟩

/-- The order of the spikes does not matter to the tasks. -/
theorem tasks_spikes (o : Ops F) (c : Config F) (t : Nat) (ss ss' : List (Option SpikeMessage))
    (hs : List.Forall₂ SameSpikes ss ss') : ∀ (l : List Nat) (st : List (Pop N B F) × List (Proj F)), Ready ss st →
    l.foldlM (trainTask (threads o c) t ss) st = l.foldlM (trainTask (threads o c) t ss') st := by
  intro l
  induction l with
  | nil => intro st _; rfl
  | cons k l ih =>
    intro st hr
    rw [List.foldlM_cons, List.foldlM_cons]
    have hk : trainTask (threads o c) t ss st k = trainTask (threads o c) t ss' st k := by
      have hl := hs.length_eq
      cases hp : st.1[k]? with
      | none => rw [trainTask_none _ _ _ _ _ (Or.inl hp), trainTask_none _ _ _ _ _ (Or.inl hp)]
      | some p =>
        cases hx : ss[k]? with
        | none =>
          have hx' : ss'[k]? = none := by rw [List.getElem?_eq_none_iff] at hx ⊢; omega
          rw [trainTask_none _ _ _ _ _ (Or.inr hx), trainTask_none _ _ _ _ _ (Or.inr hx')]
        | some s =>
          have hk : k < ss'.length := by have := (List.getElem?_eq_some_iff.1 hx).1; omega
          have hx' : ss'[k]? = some ss'[k] := List.getElem?_eq_getElem hk
          rw [trainTask_eq o c t ss st k p s hp hx, trainTask_eq o c t ss' st k p _ hp hx',
            trainM_spikes o t p st.2 s ss'[k] (forall₂_get hs k _ _ hx hx') (forall₂_get hr.fine k _ _ hp hx) hr.find]
    rw [← hk]
    cases h : trainTask (threads o c) t ss st k with
    | throw w => rfl
    | ub => rfl
    | ok st' => exact ih st' (trainTask_ready hr h).1

/-- Queues do not matter to the tasks. -/
theorem tasks_queues (o : Ops F) (c : Config F) (t u : Nat) (ss : List (Option SpikeMessage)) : ∀ (l : List Nat)
    (ps ps1 : List (Pop N B F)) (js js' js1 : List (Proj F)), List.Forall₂ (SameProjL u) js js' →
    l.foldlM (trainTask (threads o c) t ss) (ps, js) = .ok (ps1, js1) →
    ∃ js1', l.foldlM (trainTask (threads o c) t ss) (ps, js') = .ok (ps1, js1') ∧ List.Forall₂ (SameProjL u) js1 js1' := by
  intro l
  induction l with
  | nil => intro ps ps1 js js' js1 hr h; cases h; exact ⟨js', rfl, hr⟩
  | cons k l ih =>
    intro ps ps1 js js' js1 hr h
    rw [List.foldlM_cons] at h
    obtain ⟨⟨qs, ks⟩, h1, h2⟩ := obindE _ _ _ h
    have hk : ∃ ks', trainTask (threads o c) t ss (ps, js') k = .ok (qs, ks') ∧ List.Forall₂ (SameProjL u) ks ks' := by
      cases hp : ps[k]? with
      | none =>
        rw [trainTask_none _ _ _ _ _ (Or.inl hp)] at h1
        cases h1
        exact ⟨js', trainTask_none _ _ _ _ _ (Or.inl hp), hr⟩
      | some p =>
        cases hs : ss[k]? with
        | none =>
          rw [trainTask_none _ _ _ _ _ (Or.inr hs)] at h1
          cases h1
          exact ⟨js', trainTask_none _ _ _ _ _ (Or.inr hs), hr⟩
        | some s =>
          rw [trainTask_eq o c t ss (ps, js) k p s hp hs] at h1
          obtain ⟨r, e1, e2⟩ := obindE _ _ _ h1
          cases e2
          obtain ⟨js1', f1, f2⟩ := trainM_queues hr e1
          refine ⟨js1', ?_, f2⟩
          rw [trainTask_eq o c t ss (ps, js') k p s hp hs]
          simp only
          rw [f1]
          rfl
    obtain ⟨ks', e1, e2⟩ := hk
    obtain ⟨js1', f1, f2⟩ := ih qs ps1 ks ks' js1 e2 h2
    refine ⟨js1', ?_, f2⟩
    rw [List.foldlM_cons, e1]
    exact f1

end Knp.Learn
