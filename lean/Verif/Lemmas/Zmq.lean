import Verif.Spec.Zmq
import Verif.Lemmas.Bus

/-! # Lemmas about the ZeroMQ bus -/

namespace Knp.Zmq
open Knp Knp.Bus

variable {F X : Type}

/-- The codec gives back what it packed, in frames that are no identities. -/
structure Lawful (c : Codec F X) : Prop where
  round : ∀ m, c.unpack (c.pack m) = .ok m
  size : ∀ m, c.size (c.pack m) ≠ 5 ∧ c.size (c.pack m) ≠ 0

/-- All of these are packed messages. -/
def Packed (c : Codec F X) (xs : List X) : Prop := ∀ x ∈ xs, ∃ m, x = c.pack m

/-- Everything in the pipes is. -/
structure AllPacked (c : Codec F X) (w : World F X) : Prop where
  frame : Packed c w.frame.toList
  out : ∀ p ∈ w.ports, Packed c p.out
  inn : ∀ p ∈ w.ports, Packed c p.inn

theorem decoded_nil (c : Codec F X) : decoded c [] = [] := rfl

theorem decoded_append (c : Codec F X) (a b : List X) : decoded c (a ++ b) = decoded c a ++ decoded c b := by
  unfold decoded; rw [List.filterMap_append]

theorem decoded_pack {c : Codec F X} (hc : Lawful c) (m : Message F) (xs : List X) :
    decoded c (c.pack m :: xs) = m :: decoded c xs := by
  unfold decoded; simp [hc.round]

theorem Packed.length {c : Codec F X} (hc : Lawful c) {xs : List X} (h : Packed c xs) : (decoded c xs).length = xs.length := by
  induction xs with
  | nil => rfl
  | cons x xs ih =>
    obtain ⟨m, rfl⟩ := h x (by simp)
    rw [decoded_pack hc, List.length_cons, List.length_cons, ih (fun y hy => h y (List.mem_cons_of_mem _ hy))]

/-! ## Ports -/

theorem port_some {w : World F X} {i : Nat} {p : Port F X} : w.port i = some p ↔ w.ports[i]? = some p ∧ p.alive = true := by
  unfold World.port
  cases h : w.ports[i]? with
  | none => simp
  | some q =>
    simp only
    split
    · rename_i hq; simp only [Option.some.injEq]
      constructor
      · rintro rfl; exact ⟨rfl, hq⟩
      · exact And.left
    · rename_i hq; simp only [Option.some.injEq]
      constructor
      · intro h; cases h
      · rintro ⟨rfl, h⟩; exact absurd h hq

theorem ports_onPort (w : World F X) (e : Nat) (f : Port F X → Port F X) (i : Nat) :
    (w.onPort e f).ports[i]? = (w.ports[i]?).map (fun p => if e = i ∧ p.alive = true then f p else p) := by
  unfold World.onPort
  simp only [List.getElem?_modify]
  by_cases h : e = i
  · subst h
    cases w.ports[e]? with
    | none => simp
    | some p => simp
  · cases w.ports[i]? <;> simp [h]

theorem port_onPort (w : World F X) (e : Nat) (f : Port F X → Port F X) (hf : ∀ p, (f p).alive = p.alive) (i : Nat) :
    (w.onPort e f).port i = (w.port i).map (fun p => if e = i then f p else p) := by
  unfold World.port
  rw [ports_onPort]
  cases h : w.ports[i]? with
  | none => rfl
  | some p =>
    simp only [Option.map_some]
    by_cases ha : p.alive = true
    · by_cases he : e = i
      · simp [ha, he, hf]
      · simp [ha, he]
    · simp [ha]

/-! ## Receiving -/

theorem receiveLoop_ok {c : Codec F X} (hc : Lawful c) (fuel : Nat) (p : Port F X) (h : p.inn.length < fuel) (hp : Packed c p.inn) :
    p.receiveLoop c fuel = .ok { p with inn := [], ep := { p.ep with subs := p.ep.subs.map (absorb (decoded c p.inn)) } } := by
  induction fuel generalizing p with
  | zero => omega
  | succ fuel ih =>
    obtain ⟨al, jo, ep, out, inn⟩ := p
    simp only at h hp ⊢
    cases inn with
    | nil =>
      have : (absorb ([] : List (Message F))) = id := funext absorb_nil
      simp [Port.receiveLoop, Port.receiveMessage, decoded, this]
    | cons x xs =>
      obtain ⟨m, rfl⟩ := hp x (by simp)
      simp only [Port.receiveLoop, Port.receiveMessage, hc.round]
      rw [ih _ (by simpa using h) (fun y hy => hp y (List.mem_cons_of_mem _ hy))]
      simp only [Outcome.ok.injEq, Port.mk.injEq, true_and, and_true]
      rw [deliver_eq, decoded_pack hc]
      simp only [Endpoint.mk.injEq, and_true, List.map_map]
      apply List.map_congr_left
      intro s _
      exact (absorb_append [m] _ s).symm

theorem receiveAll_ok {c : Codec F X} (hc : Lawful c) (p : Port F X) (hp : Packed c p.inn) :
    p.receiveAll c = .ok { p with inn := [], ep := { p.ep with subs := p.ep.subs.map (absorb (decoded c p.inn)) } } :=
  receiveLoop_ok hc _ p (by omega) hp

theorem receiveMessage_ok {c : Codec F X} (hc : Lawful c) (p : Port F X) (hp : Packed c p.inn) :
    (p.receiveMessage c).bind (fun r => .ok r.1) =
      .ok { p with inn := p.inn.drop 1, ep := { p.ep with subs := p.ep.subs.map (absorb (decoded c (p.inn.take 1))) } } := by
  obtain ⟨al, jo, ep, out, inn⟩ := p
  cases inn with
  | nil =>
    have : (absorb ([] : List (Message F))) = id := funext absorb_nil
    simp [Port.receiveMessage, decoded, this, Outcome.bind]
  | cons x xs =>
    obtain ⟨m, rfl⟩ := hp x (by simp)
    simp [Port.receiveMessage, hc.round, deliver_eq, decoded, Outcome.bind]

/-! ## What a call does to one port -/

/-- How a call other than the bus's changes an endpoint: `ms` of its pipe are received, `sent` is sent. -/
def portStep (c : Codec F X) (i : Nat) (op : Op F) (p : Port F X) : Port F X :=
  if p.alive = true then
    match op with
    | .destroyEndpoint e => if e = i then { p with alive := false, inn := [] } else p
    | .subscribe e k r xs => if e = i then { p with ep := p.ep.subscribe k r xs } else p
    | .unsubscribe e k r => if e = i then { p with ep := (p.ep.unsubscribe k r).1 } else p
    | .subAddSender e k r x => if e = i then { p with ep := p.ep.modifySub k r (fun s => (s.addSender x).1) } else p
    | .subRemoveSender e k r x => if e = i then { p with ep := p.ep.modifySub k r (fun s => (s.removeSender x).1) } else p
    | .send e m => if e = i then { p with out := p.out ++ [c.pack m] } else p
    | .receiveMessage e =>
      if e = i then
        { p with inn := p.inn.drop 1, ep := { p.ep with subs := p.ep.subs.map (absorb (decoded c (p.inn.take 1))) } } else p
    | .receiveAll e =>
      if e = i then { p with inn := [], ep := { p.ep with subs := p.ep.subs.map (absorb (decoded c p.inn)) } } else p
    | .unload e k r => if e = i then { p with ep := (p.ep.unload k r).1 } else p
    | _ => p
  else p

theorem tryPort_ok (w : World F X) (e : Nat) (f : Port F X → Outcome (Port F X)) (g : Port F X → Port F X)
    (h : ∀ p, w.port e = some p → f p = .ok (g p)) : w.tryPort e f = .ok (w.onPort e g) := by
  unfold World.tryPort
  cases hp : w.port e with
  | none =>
    simp only [Outcome.ok.injEq]
    unfold World.onPort
    obtain ⟨ps, fr⟩ := w
    simp only [World.mk.injEq, and_true]
    apply List.ext_getElem?
    intro n
    rw [List.getElem?_modify]
    by_cases hn : e = n
    · subst hn
      cases hq : ps[e]? with
      | none => rfl
      | some q =>
        have : ¬ q.alive = true := by
          intro ha
          have : (⟨ps, fr⟩ : World F X).port e = some q := port_some.2 ⟨hq, ha⟩
          rw [hp] at this; cases this
        simp [this]
    · cases ps[n]? <;> simp [hn]
  | some p =>
    simp only [h p hp, Outcome.ok.injEq]
    unfold World.onPort
    obtain ⟨ps, fr⟩ := w
    simp only [World.mk.injEq, and_true]
    apply List.ext_getElem?
    intro n
    rw [List.getElem?_modify, List.getElem?_modify]
    by_cases hn : e = n
    · subst hn
      obtain ⟨hq, ha⟩ := port_some.1 hp
      simp only at hq
      simp [hq, ha]
    · simp [hn]

/-- The calls of the bus. -/
def IsBus (op : Op F) : Prop := op = .route ∨ op = .busStep

/-- A call that is not the bus's, ends normally and creates nothing changes the endpoints as `portStep` says. -/
theorem exec_ports {l : Limits} {c : Codec F X} (hc : Lawful c) {w w' : World F X} (hw : AllPacked c w) {call : Call F}
    (hop : ¬ IsBus call.op) (hcr : call.op ≠ .createEndpoint) (h : w.exec l c call = some (.ok w')) :
    w'.frame = w.frame ∧ w'.ports.length = w.ports.length ∧ ∀ i, w'.ports[i]? = (w.ports[i]?).map (portStep c i call.op) := by
  obtain ⟨op, picks, lag⟩ := call
  have main : ∀ (e : Nat) (g : Port F X → Port F X), w' = w.onPort e g →
      (∀ p, portStep c e op p = if p.alive = true then g p else p) → (∀ i p, i ≠ e → portStep c i op p = p) →
      w'.frame = w.frame ∧ w'.ports.length = w.ports.length ∧ ∀ i, w'.ports[i]? = (w.ports[i]?).map (portStep c i op) := by
    intro e g he h1 h2
    subst he
    refine ⟨rfl, by simp [World.onPort], fun i => ?_⟩
    rw [ports_onPort]
    congr 1
    funext p
    by_cases hi : e = i
    · subst hi; rw [h1]; simp
    · rw [h2 i p (fun h => hi h.symm)]; simp [hi]
  have aux : ∀ (A B : Prop) [Decidable A] [Decidable B] (x y : Port F X), (A → ¬ B) → (if A then (if B then x else y) else y) = y := by
    intro A B _ _ x y h; by_cases ha : A
    · simp [ha, h ha]
    · simp [ha]
  have hinn : ∀ e p, w.port e = some p → Packed c p.inn := fun e p hp => hw.inn p (List.mem_of_getElem? (port_some.1 hp).1)
  cases op with
  | createEndpoint => exact absurd rfl hcr
  | route => exact absurd (Or.inl rfl) hop
  | busStep => exact absurd (Or.inr rfl) hop
  | destroyEndpoint e =>
    simp only [World.exec, Option.some.injEq, Outcome.ok.injEq] at h
    exact main e _ h.symm (fun p => by simp [portStep]) (fun i p hi => aux _ _ _ _ (fun _ h => hi h.symm))
  | subscribe e k r xs =>
    simp only [World.exec, Option.some.injEq, Outcome.ok.injEq] at h
    exact main e _ h.symm (fun p => by simp [portStep]) (fun i p hi => aux _ _ _ _ (fun _ h => hi h.symm))
  | unsubscribe e k r =>
    simp only [World.exec, Option.some.injEq, Outcome.ok.injEq] at h
    exact main e _ h.symm (fun p => by simp [portStep]) (fun i p hi => aux _ _ _ _ (fun _ h => hi h.symm))
  | subAddSender e k r x =>
    simp only [World.exec, Option.some.injEq, Outcome.ok.injEq] at h
    exact main e _ h.symm (fun p => by simp [portStep]) (fun i p hi => aux _ _ _ _ (fun _ h => hi h.symm))
  | subRemoveSender e k r x =>
    simp only [World.exec, Option.some.injEq, Outcome.ok.injEq] at h
    exact main e _ h.symm (fun p => by simp [portStep]) (fun i p hi => aux _ _ _ _ (fun _ h => hi h.symm))
  | unload e k r =>
    simp only [World.exec, Option.some.injEq, Outcome.ok.injEq] at h
    exact main e _ h.symm (fun p => by simp [portStep]) (fun i p hi => aux _ _ _ _ (fun _ h => hi h.symm))
  | receiveMessage e =>
    simp only [World.exec, Option.some.injEq] at h
    rw [tryPort_ok w e _ _ (fun p hp => receiveMessage_ok hc p (hinn e p hp))] at h
    exact main e _ (Outcome.ok.inj h).symm (fun p => by simp [portStep]) (fun i p hi => aux _ _ _ _ (fun _ h => hi h.symm))
  | receiveAll e =>
    simp only [World.exec, Option.some.injEq] at h
    rw [tryPort_ok w e _ _ (fun p hp => receiveAll_ok hc p (hinn e p hp))] at h
    exact main e _ (Outcome.ok.inj h).symm (fun p => by simp [portStep]) (fun i p hi => aux _ _ _ _ (fun _ h => hi h.symm))
  | send e m =>
    simp only [World.exec] at h
    cases hp : w.port e with
    | some p =>
      rw [hp] at h
      simp only at h
      split at h
      · cases h
      · simp only [Option.some.injEq, Outcome.ok.injEq] at h
        exact main e _ h.symm (fun p => by simp [portStep]) (fun i p hi => aux _ _ _ _ (fun _ h => hi h.symm))
    | none =>
      rw [hp] at h
      simp only [Option.some.injEq, Outcome.ok.injEq] at h
      subst h
      refine ⟨rfl, rfl, fun i => ?_⟩
      cases hi : w.ports[i]? with
      | none => rfl
      | some q =>
        simp only [Option.map_some, Option.some.injEq]
        unfold portStep
        by_cases ha : q.alive = true
        · have : e ≠ i := by
            rintro rfl
            rw [port_some.2 ⟨hi, ha⟩] at hp; cases hp
          simp [this]
        · simp [ha]

/-! ## What a step of the bus does -/

theorem packed_nil (c : Codec F X) : Packed c [] := fun _ h => by cases h

theorem sum_modify (ps : List (Port F X)) (n : Nat) (x : X) (p : Port F X) (hp : ps[n]? = some p) (hx : p.out.head? = some x) :
    ((ps.modify n (fun p => { p with out := p.out.tail })).map (fun p => p.out.length)).sum + 1 =
      (ps.map (fun p => p.out.length)).sum := by
  induction ps generalizing n with
  | nil => simp at hp
  | cons q qs ih =>
    cases n with
    | zero =>
      simp only [List.getElem?_cons_zero, Option.some.injEq] at hp
      subst hp
      simp only [List.modify_zero_cons, List.map_cons, List.sum_cons, List.length_tail]
      cases ho : q.out with
      | nil => rw [ho] at hx; simp at hx
      | cons y ys => simp; omega
    | succ n =>
      simp only [List.getElem?_cons_succ] at hp
      simp only [List.modify_succ_cons, List.map_cons, List.sum_cons]
      have := ih n hp
      omega

/-- The two things a step of the bus does (if there is something to do). -/
inductive StepsTo (l : Limits) (w : World F X) (pk : Pick) : World F X → Prop
  | publish (x : X) (h : w.frame = some x) : StepsTo l w pk ⟨w.ports.mapIdx (World.offer l pk x), none⟩
  | read (x : X) (p : Port F X) (h : w.frame = none) (hp : w.ports[pk.src]? = some p) (hx : p.out.head? = some x) :
      StepsTo l w pk ⟨w.ports.modify pk.src (fun p => { p with out := p.out.tail }), some x⟩

theorem step_cases {l : Limits} {c : Codec F X} (hc : Lawful c) {w w' : World F X} (hw : AllPacked c w) {pk : Pick} {n : Nat}
    (h : w.step l c pk = some (w', n)) : (n = 1 ∧ StepsTo l w pk w') ∨ (n = 0 ∧ w' = w ∧ w.frame = none ∧ w.idle = true) := by
  unfold World.step at h
  cases hf : w.frame with
  | some x =>
    rw [hf] at h
    obtain ⟨m, rfl⟩ := hw.frame x (by rw [hf]; simp)
    simp only [if_neg (hc.size m).1, if_neg (hc.size m).2, Option.some.injEq, Prod.mk.injEq] at h
    obtain ⟨rfl, rfl⟩ := h
    exact Or.inl ⟨rfl, .publish _ hf⟩
  | none =>
    rw [hf] at h
    simp only at h
    cases hb : (w.ports[pk.src]?).bind (fun p => p.out.head?) with
    | some x =>
      rw [hb] at h
      simp only [Option.some.injEq, Prod.mk.injEq] at h
      obtain ⟨rfl, rfl⟩ := h
      obtain ⟨p, hp, hx⟩ := Option.bind_eq_some_iff.1 hb
      exact Or.inl ⟨rfl, .read x p hf hp hx⟩
    | none =>
      rw [hb] at h
      simp only at h
      split at h
      · rename_i hi
        simp only [Option.some.injEq, Prod.mk.injEq] at h
        obtain ⟨rfl, rfl⟩ := h
        exact Or.inr ⟨rfl, rfl, rfl, hi⟩
      · cases h

theorem offer_out (l : Limits) (pk : Pick) (x : X) (i : Nat) (p : Port F X) :
    (World.offer l pk x i p).out = p.out ∧ (World.offer l pk x i p).alive = p.alive ∧ (World.offer l pk x i p).ep = p.ep ∧
      (p.joined = true → (World.offer l pk x i p).joined = true) ∧
      ((World.offer l pk x i p).inn = p.inn ∨ (World.offer l pk x i p).inn = p.inn ++ [x]) := by
  unfold World.offer
  simp only
  split
  · refine ⟨rfl, rfl, rfl, fun h => ?_, Or.inr rfl⟩
    simp [h]
  · refine ⟨rfl, rfl, rfl, fun h => ?_, Or.inl rfl⟩
    simp [h]

theorem offer_takes (l : Limits) (pk : Pick) (x : X) (i : Nat) (p : Port F X) (ha : p.alive = true) (hj : p.joined = true)
    (hr : p.inn.length < l.sure) (hl : l.sure ≤ l.hard) : (World.offer l pk x i p).inn = p.inn ++ [x] := by
  have : full l (pk.lag.contains i) p.inn.length = false := by
    unfold full
    have h1 : ¬ l.hard ≤ p.inn.length := by omega
    have h2 : ¬ l.sure ≤ p.inn.length := by omega
    simp [h1, h2]
  unfold World.offer
  simp only [ha, hj, this, Bool.true_or, Bool.and_self, Bool.not_false, if_true]

theorem steps_packed {l : Limits} {c : Codec F X} {w w' : World F X} {pk : Pick} (hw : AllPacked c w) (h : StepsTo l w pk w') :
    AllPacked c w' := by
  cases h with
  | publish x hx =>
    refine ⟨packed_nil c, ?_, ?_⟩
    · intro p hp
      obtain ⟨i, hi, rfl⟩ := List.mem_mapIdx.1 hp
      rw [(offer_out l pk x i _).1]
      exact hw.out _ (List.getElem_mem hi)
    · intro p hp
      obtain ⟨i, hi, rfl⟩ := List.mem_mapIdx.1 hp
      rcases (offer_out l pk x i w.ports[i]).2.2.2.2 with h | h
      · rw [h]; exact hw.inn _ (List.getElem_mem hi)
      · rw [h]
        intro y hy
        rcases List.mem_append.1 hy with hy | hy
        · exact hw.inn _ (List.getElem_mem hi) y hy
        · rw [List.mem_singleton.1 hy]; exact hw.frame x (by rw [hx]; simp)
  | read x p h hp hx =>
    have hpm := List.mem_of_getElem? hp
    have hxo : x ∈ p.out := by
      cases ho : p.out with
      | nil => rw [ho] at hx; simp at hx
      | cons y ys => rw [ho] at hx; simp at hx; simp [hx]
    refine ⟨?_, ?_, ?_⟩
    · intro y hy
      simp only [Option.toList_some, List.mem_singleton] at hy
      subst hy
      exact hw.out p hpm y hxo
    · intro q hq
      rw [List.mem_iff_getElem?] at hq
      obtain ⟨i, hi⟩ := hq
      rw [List.getElem?_modify] at hi
      obtain ⟨q0, h0, rfl⟩ := Option.map_eq_some_iff.1 hi
      split
      · intro y hy; exact hw.out q0 (List.mem_of_getElem? h0) y (List.mem_of_mem_tail hy)
      · exact hw.out q0 (List.mem_of_getElem? h0)
    · intro q hq
      rw [List.mem_iff_getElem?] at hq
      obtain ⟨i, hi⟩ := hq
      rw [List.getElem?_modify] at hi
      obtain ⟨q0, h0, rfl⟩ := Option.map_eq_some_iff.1 hi
      split
      · exact hw.inn q0 (List.mem_of_getElem? h0)
      · exact hw.inn q0 (List.mem_of_getElem? h0)

theorem portStep_packed {c : Codec F X} (i : Nat) (op : Op F) (p : Port F X) (ho : Packed c p.out) (hi : Packed c p.inn) :
    Packed c (portStep c i op p).out ∧ Packed c (portStep c i op p).inn := by
  have aux : ∀ (A : Prop) [Decidable A] (q : Port F X), Packed c q.out ∧ Packed c q.inn →
      Packed c (if A then q else p).out ∧ Packed c (if A then q else p).inn := by
    intro A _ q hq
    split
    · exact hq
    · exact ⟨ho, hi⟩
  unfold portStep
  split
  · cases op with
    | createEndpoint => exact ⟨ho, hi⟩
    | route => exact ⟨ho, hi⟩
    | busStep => exact ⟨ho, hi⟩
    | destroyEndpoint e => exact aux _ _ ⟨ho, packed_nil c⟩
    | subscribe e k r xs => exact aux _ _ ⟨ho, hi⟩
    | unsubscribe e k r => exact aux _ _ ⟨ho, hi⟩
    | subAddSender e k r x => exact aux _ _ ⟨ho, hi⟩
    | subRemoveSender e k r x => exact aux _ _ ⟨ho, hi⟩
    | unload e k r => exact aux _ _ ⟨ho, hi⟩
    | receiveMessage e => exact aux _ _ ⟨ho, fun x hx => hi x (List.mem_of_mem_drop hx)⟩
    | receiveAll e => exact aux _ _ ⟨ho, packed_nil c⟩
    | send e m =>
      refine aux _ _ ⟨fun x hx => ?_, hi⟩
      rcases List.mem_append.1 hx with hx | hx
      · exact ho x hx
      · exact ⟨m, List.mem_singleton.1 hx⟩
  · exact ⟨ho, hi⟩

/-- A property that every step of the bus keeps is kept by routing. -/
theorem routeLoop_ind {l : Limits} {c : Codec F X} (hc : Lawful c) (P : World F X → Prop)
    (hP : ∀ w w' pk, AllPacked c w → P w → StepsTo l w pk w' → P w') :
    ∀ (pks : List Pick) (w : World F X) (n : Nat) (w' : World F X) (n' : Nat), AllPacked c w → P w →
      World.routeLoop l c pks w n = some (w', n') → AllPacked c w' ∧ P w' ∧ w'.frame = none ∧ w'.idle = true := by
  intro pks
  induction pks with
  | nil => intro w n w' n' _ _ h; cases h
  | cons pk pks ih =>
    intro w n w' n' hw hp h
    unfold World.routeLoop at h
    cases hs : w.step l c pk with
    | none => rw [hs] at h; cases h
    | some r =>
      obtain ⟨w1, k⟩ := r
      rw [hs] at h
      rcases step_cases hc hw hs with ⟨rfl, hst⟩ | ⟨rfl, rfl, hf, hi⟩
      · exact ih w1 _ w' n' (steps_packed hw hst) (hP w w1 pk hw hp hst) h
      · simp only at h
        split at h
        · simp only [Option.some.injEq, Prod.mk.injEq] at h
          obtain ⟨rfl, _⟩ := h
          exact ⟨hw, hp, hf, hi⟩
        · cases h

/-- ... and by a call of the bus. -/
theorem bus_ind {l : Limits} {c : Codec F X} (hc : Lawful c) (P : World F X → Prop)
    (hP : ∀ w w' pk, AllPacked c w → P w → StepsTo l w pk w' → P w') {w w' : World F X} {call : Call F} (hop : IsBus call.op)
    (hw : AllPacked c w) (hp : P w) (h : w.exec l c call = some (.ok w')) : AllPacked c w' ∧ P w' := by
  obtain ⟨op, picks, lag⟩ := call
  rcases hop with hop | hop
  · simp only at hop
    subst hop
    simp only [World.exec] at h
    obtain ⟨r, hr, he⟩ := Option.map_eq_some_iff.1 h
    cases he
    have := routeLoop_ind hc P hP picks w 0 r.1 r.2 hw hp hr
    exact ⟨this.1, this.2.1⟩
  · simp only at hop
    subst hop
    simp only [World.exec] at h
    split at h
    · rename_i pk
      obtain ⟨r, hr, he⟩ := Option.map_eq_some_iff.1 h
      cases he
      rcases step_cases hc hw hr with ⟨_, hst⟩ | ⟨_, hw', _⟩
      · exact ⟨steps_packed hw hst, hP _ _ _ hw hp hst⟩
      · rw [hw']; exact ⟨hw, hp⟩
    · cases h

theorem exec_packed {l : Limits} {c : Codec F X} (hc : Lawful c) {w w' : World F X} {call : Call F}
    (hw : AllPacked c w) (h : w.exec l c call = some (.ok w')) : AllPacked c w' := by
  by_cases hb : IsBus call.op
  · exact (bus_ind hc (fun _ => True) (fun _ _ _ _ _ _ => trivial) hb hw trivial h).1
  · by_cases hcr : call.op = .createEndpoint
    · obtain ⟨op, picks, lag⟩ := call
      simp only at hcr
      subst hcr
      simp only [World.exec, Option.some.injEq, Outcome.ok.injEq] at h
      subst h
      refine ⟨hw.frame, fun p hp => ?_, fun p hp => ?_⟩ <;>
        rcases List.mem_append.1 hp with hp | hp
      · exact hw.out p hp
      · rw [List.mem_singleton.1 hp]; exact packed_nil c
      · exact hw.inn p hp
      · rw [List.mem_singleton.1 hp]; exact packed_nil c
    · obtain ⟨h1, _, h3⟩ := exec_ports hc hw hb hcr h
      refine ⟨by rw [h1]; exact hw.frame, fun p hp => ?_, fun p hp => ?_⟩ <;>
        obtain ⟨i, hi⟩ := List.mem_iff_getElem?.1 hp <;> rw [h3 i] at hi <;>
        obtain ⟨q, hq, rfl⟩ := Option.map_eq_some_iff.1 hi
      · exact (portStep_packed i call.op q (hw.out q (List.mem_of_getElem? hq)) (hw.inn q (List.mem_of_getElem? hq))).1
      · exact (portStep_packed i call.op q (hw.out q (List.mem_of_getElem? hq)) (hw.inn q (List.mem_of_getElem? hq))).2

theorem init_packed (c : Codec F X) : AllPacked c (World.init : World F X) :=
  ⟨packed_nil c, (fun _ h => nomatch h), (fun _ h => nomatch h)⟩

theorem run_packed {l : Limits} {c : Codec F X} (hc : Lawful c) (calls : List (Call F)) (w w' : World F X)
    (hw : AllPacked c w) (h : w.run l c calls = some (.ok w')) : AllPacked c w' := by
  induction calls generalizing w with
  | nil => cases h; exact hw
  | cons call calls ih =>
    unfold World.run at h
    cases he : w.exec l c call with
    | none => rw [he] at h; cases h
    | some o =>
      rw [he] at h
      cases o with
      | throw e => cases h
      | ub => cases h
      | ok w1 => exact ih w1 (exec_packed hc hw he) h

/-! ## The way of a sender's messages -/

/-- What one call sends through endpoint `e`. -/
def sentNow (w : World F X) (e : Nat) : Op F → List (Message F)
  | .send e' m => if e' = e ∧ (w.port e).isSome then [m] else []
  | _ => []

/-- What one call unloads. -/
def unloadedNow (w : World F X) (i : Nat) (k : MsgKind) (r : UID) : Op F → List (Message F)
  | .unload e k' r' => if e = i ∧ k' = k ∧ r' = r then stored w i k r else []
  | _ => []

/-- The call is `unload_messages<k>(r)` on `i`. -/
def unloadsHere (i : Nat) (k : MsgKind) (r : UID) : Op F → Bool
  | .unload e k' r' => decide (e = i ∧ k' = k ∧ r' = r)
  | _ => false

theorem ofSender_accepts {s : Subscr F} {k : MsgKind} {u : UID} (hk : s.kind = k) (hu : u ∈ s.senders) (ms : List (Message F)) :
    (ms.filter (accepts s)).filter (ofSender k u) = ms.filter (ofSender k u) := by
  rw [List.filter_filter]
  apply List.filter_congr
  intro m _
  unfold ofSender accepts Subscr.hasSender
  by_cases h1 : m.kind = k
  · by_cases h2 : m.sender = u
    · subst h1; subst h2; simp [hk, hu]
    · simp [h2]
  · simp [h1]

/-- One call at one live port with the subscription. -/
theorem portStep_line {c : Codec F X} {i : Nat} {op : Op F} {q : Port F X} {s : Subscr F} {k : MsgKind} {r u : UID}
    (ha : q.alive = true) (hs : q.ep.findSub k r = some s) (hu : u ∈ s.senders) (h1 : op ≠ .destroyEndpoint i)
    (h2 : op ≠ .unsubscribe i k r) (h3 : op ≠ .subRemoveSender i k r u) :
    (portStep c i op q).alive = true ∧ (portStep c i op q).joined = q.joined ∧
    ∃ s', (portStep c i op q).ep.findSub k r = some s' ∧ u ∈ s'.senders ∧
      (((if unloadsHere i k r op = true then s.messages else []) ++ s'.messages ++ decoded c (portStep c i op q).inn).filter (ofSender k u) =
        (s.messages ++ decoded c q.inn).filter (ofSender k u)) := by
  obtain ⟨hk, hr⟩ := findSub_key hs
  have same : ∀ q' : Port F X, q'.alive = true → q'.joined = q.joined → q'.ep.findSub k r = some s → q'.inn = q.inn →
      unloadsHere i k r op = false → q'.alive = true ∧ q'.joined = q.joined ∧ ∃ s', q'.ep.findSub k r = some s' ∧ u ∈ s'.senders ∧
      (((if unloadsHere i k r op = true then s.messages else []) ++ s'.messages ++ decoded c q'.inn).filter (ofSender k u) =
        (s.messages ++ decoded c q.inn).filter (ofSender k u)) := by
    intro q' a b d e f
    exact ⟨a, b, s, d, hu, by rw [e, f]; rfl⟩
  unfold portStep
  rw [if_pos ha]
  cases op with
  | createEndpoint => exact same q ha rfl hs rfl (by simp [unloadsHere])
  | route => exact same q ha rfl hs rfl (by simp [unloadsHere])
  | busStep => exact same q ha rfl hs rfl (by simp [unloadsHere])
  | destroyEndpoint e =>
    have : e ≠ i := fun h => h1 (by rw [h])
    simp only
    rw [if_neg this]
    exact same q ha rfl hs rfl (by simp [unloadsHere])
  | send e m =>
    simp only
    split
    · exact same _ ha rfl hs rfl (by simp [unloadsHere])
    · exact same q ha rfl hs rfl (by simp [unloadsHere])
  | subscribe e k' r' xs =>
    simp only
    split
    · refine ⟨ha, rfl, ?_⟩
      simp only [findSub_subscribe, hs]
      split
      · refine ⟨_, rfl, ?_, by simp [unloadsHere]⟩
        simp [mem_setInsertAll, hu]
      · exact ⟨s, rfl, hu, by simp [unloadsHere]⟩
    · exact same q ha rfl hs rfl (by simp [unloadsHere])
  | unsubscribe e k' r' =>
    simp only
    split
    · rename_i he
      refine ⟨ha, rfl, s, ?_, hu, by simp [unloadsHere]⟩
      simp only [findSub_unsubscribe, hs]
      rw [if_neg]
      rintro ⟨rfl, rfl⟩
      exact h2 (by rw [he])
    · exact same q ha rfl hs rfl (by simp [unloadsHere])
  | subAddSender e k' r' x =>
    simp only
    split
    · refine ⟨ha, rfl, ?_⟩
      simp only
      rw [findSub_modify q.ep k k' r r' (fun s => (s.addSender x).1) (fun _ => rfl) (fun _ => rfl), hs]
      split
      · refine ⟨_, rfl, ?_, by simp [Subscr.addSender, unloadsHere]⟩
        simp [Subscr.addSender, mem_setInsert, hu]
      · exact ⟨s, rfl, hu, by simp [unloadsHere]⟩
    · exact same q ha rfl hs rfl (by simp [unloadsHere])
  | subRemoveSender e k' r' x =>
    simp only
    split
    · rename_i he
      refine ⟨ha, rfl, ?_⟩
      simp only
      rw [findSub_modify q.ep k k' r r' (fun s => (s.removeSender x).1) (fun _ => rfl) (fun _ => rfl), hs]
      split
      · rename_i hkr
        refine ⟨_, rfl, ?_, by simp [Subscr.removeSender, unloadsHere]⟩
        have : x ≠ u := by
          rintro rfl
          exact h3 (by rw [he, hkr.1, hkr.2])
        simp only [Subscr.removeSender, List.mem_filter, hu, true_and]
        simpa using fun h => this h.symm
      · exact ⟨s, rfl, hu, by simp [unloadsHere]⟩
    · exact same q ha rfl hs rfl (by simp [unloadsHere])
  | unload e k' r' =>
    simp only
    split
    · rename_i he
      refine ⟨ha, rfl, ?_⟩
      simp only
      rw [unload_fst_findSub, hs]
      split
      · rename_i hkr
        obtain ⟨rfl, rfl⟩ := hkr
        exact ⟨_, rfl, hu, by simp [he, unloadsHere]⟩
      · rename_i hkr
        refine ⟨s, rfl, hu, ?_⟩
        rw [if_neg]
        · rfl
        · intro h
          simp only [unloadsHere, decide_eq_true_eq] at h
          exact hkr ⟨h.2.1, h.2.2⟩
    · rename_i he
      exact same q ha rfl hs rfl (by simp [he, unloadsHere])
  | receiveMessage e =>
    simp only
    split
    · refine ⟨ha, rfl, ?_⟩
      simp only
      rw [findSub_absorb, hs]
      refine ⟨_, rfl, hu, ?_⟩
      simp only [absorb, List.filter_append, ofSender_accepts hk hu]
      rw [if_neg (by simp [unloadsHere]), List.filter_nil, List.nil_append, List.append_assoc, ← List.filter_append, ← decoded_append,
        List.take_append_drop]
    · exact same q ha rfl hs rfl (by simp [unloadsHere])
  | receiveAll e =>
    simp only
    split
    · refine ⟨ha, rfl, ?_⟩
      simp only
      rw [findSub_absorb, hs]
      refine ⟨_, rfl, hu, ?_⟩
      simp [absorb, List.filter_append, ofSender_accepts hk hu, decoded, unloadsHere]
    · exact same q ha rfl hs rfl (by simp [unloadsHere])

theorem portStep_out {c : Codec F X} (e : Nat) (op : Op F) (q : Port F X) :
    (portStep c e op q).out = q.out ++ (match op with
      | .send e' m => if e' = e ∧ q.alive = true then [c.pack m] else []
      | _ => []) := by
  unfold portStep
  by_cases ha : q.alive = true
  · rw [if_pos ha]
    cases op <;> simp only [List.append_nil] <;> try (split <;> simp_all)
  · rw [if_neg ha]
    cases op <;> simp [ha]

/-- Endpoint `i` is connected and its subscription `(k, r)` listens to `u`, whose messages are only in the pipe of `src`. -/
structure Track (c : Codec F X) (i : Nat) (k : MsgKind) (r u : UID) (src : Nat) (w : World F X) : Prop where
  packed : AllPacked c w
  listens : ∃ q s, w.port i = some q ∧ q.joined = true ∧ q.ep.findSub k r = some s ∧ u ∈ s.senders
  only : ∀ e, e ≠ src → (decoded c (pipeOut w e)).filter (ofSender k u) = []

/-- Everything of `src` on its way to `(k, r)`. -/
def line (c : Codec F X) (i : Nat) (k : MsgKind) (r : UID) (src : Nat) (w : World F X) : List (Message F) :=
  stored w i k r ++ decoded c (pipeIn w i) ++ decoded c (inFlight w src)

theorem stored_of {w : World F X} {i : Nat} {k : MsgKind} {r : UID} {q : Port F X} {s : Subscr F} (hq : w.port i = some q)
    (hs : q.ep.findSub k r = some s) : stored w i k r = s.messages ∧ pipeIn w i = q.inn := by
  simp [stored, subscription, pipeIn, hq, hs]

theorem call_track {l : Limits} {c : Codec F X} (hc : Lawful c) {i : Nat} {k : MsgKind} {r u : UID} {src : Nat} {w w' : World F X}
    {call : Call F} (ht : Track c i k r u src w) (hop : ¬ IsBus call.op) (h1 : call.op ≠ .destroyEndpoint i)
    (h2 : call.op ≠ .unsubscribe i k r) (h3 : call.op ≠ .subRemoveSender i k r u)
    (h4 : ∀ e m, call.op = .send e m → m.sender = u → e = src) (h : w.exec l c call = some (.ok w')) :
    Track c i k r u src w' ∧
    (unloadedNow w i k r call.op ++ line c i k r src w').filter (ofSender k u) =
      (line c i k r src w ++ sentNow w src call.op).filter (ofSender k u) := by
  obtain ⟨q, s, hq, hj, hs, hu⟩ := ht.listens
  obtain ⟨hqi, hqa⟩ := port_some.1 hq
  have hp' := exec_packed hc ht.packed h
  by_cases hcr : call.op = .createEndpoint
  · obtain ⟨op, picks, lag⟩ := call
    simp only at hcr
    subst hcr
    simp only [World.exec, Option.some.injEq, Outcome.ok.injEq] at h
    have hlt : i < w.ports.length := (List.getElem?_eq_some_iff.1 hqi).1
    have hq' : w'.port i = some q := by
      rw [port_some, ← h]
      simp only
      rw [List.getElem?_append_left hlt]
      exact ⟨hqi, hqa⟩
    have hout : ∀ e, pipeOut w' e = pipeOut w e := by
      intro e
      unfold pipeOut
      rw [← h]
      simp only
      rcases Nat.lt_trichotomy e w.ports.length with he | he | he
      · rw [List.getElem?_append_left he]
      · subst he
        rw [List.getElem?_append_right (Nat.le_refl _), List.getElem?_eq_none (Nat.le_refl _)]
        simp
      · rw [List.getElem?_eq_none (by simp; omega), List.getElem?_eq_none (by omega)]
    have hfr : w'.frame = w.frame := by rw [← h]
    refine ⟨⟨hp', ⟨q, s, hq', hj, hs, hu⟩, fun e he => by rw [hout]; exact ht.only e he⟩, ?_⟩
    unfold line inFlight
    rw [(stored_of hq' hs).1, (stored_of hq' hs).2, (stored_of hq hs).1, (stored_of hq hs).2, hout, hfr]
    simp [unloadedNow, sentNow]
  · obtain ⟨e1, e2, e3⟩ := exec_ports hc ht.packed hop hcr h
    obtain ⟨a1, a2, s', a3, a4, a5⟩ := portStep_line (c := c) (op := call.op) hqa hs hu h1 h2 h3
    have hq' : w'.port i = some (portStep c i call.op q) := by
      rw [port_some, e3 i, hqi]; exact ⟨rfl, a1⟩
    have hout : ∀ e, decoded c (pipeOut w' e) = decoded c (pipeOut w e) ++ sentNow w e call.op := by
      intro e
      unfold pipeOut
      rw [e3 e]
      cases hpe : w.ports[e]? with
      | none =>
        have : w.port e = none := by unfold World.port; rw [hpe]
        simp only [Option.map_none, Option.getD_none]
        cases call.op <;> simp [sentNow, this, decoded]
      | some qe =>
        simp only [Option.map_some, Option.getD_some]
        rw [portStep_out, decoded_append]
        congr 1
        cases call.op with
        | send e' m =>
          simp only [sentNow]
          by_cases ha : qe.alive = true
          · rw [port_some.2 ⟨hpe, ha⟩]
            by_cases he : e' = e
            · simp [he, ha, decoded, hc.round]
            · simp [he, decoded]
          · have : w.port e = none := by
              unfold World.port; rw [hpe]; simp [ha]
            rw [this]; simp [ha, decoded]
        | _ => rfl
    refine ⟨⟨hp', ⟨_, s', hq', a2.trans hj, a3, a4⟩, fun e he => ?_⟩, ?_⟩
    · rw [hout, List.filter_append, ht.only e he, List.nil_append]
      cases hop' : call.op with
      | send e' m =>
        simp only [sentNow]
        split
        · rename_i hc'
          have : ofSender k u m = false := by
            unfold ofSender
            by_cases hm : m.sender = u
            · exact absurd (hc'.1.symm.trans (h4 e' m hop' hm)) he
            · simp [hm]
          simp [this]
        · rfl
      | _ => rfl
    · have hunl : unloadedNow w i k r call.op = if unloadsHere i k r call.op = true then s.messages else [] := by
        cases call.op <;> simp [unloadedNow, unloadsHere, (stored_of hq hs).1]
      unfold line inFlight
      rw [(stored_of hq' a3).1, (stored_of hq' a3).2, (stored_of hq hs).1, (stored_of hq hs).2, e1, decoded_append, decoded_append,
        hout, hunl]
      simp only [List.filter_append, List.append_assoc] at a5 ⊢
      rw [← List.append_assoc (List.filter _ s'.messages), ← List.append_assoc, a5]
      simp

/-- A step of the bus, if there is room. -/
theorem step_track {l : Limits} {c : Codec F X} (hc : Lawful c) (hl : l.sure ≤ l.hard) {i : Nat} {k : MsgKind} {r u : UID} {src : Nat}
    {w w' : World F X} {pk : Pick} (ht : Track c i k r u src w) (hr : (pipeIn w i).length + flying w ≤ l.sure)
    (h : StepsTo l w pk w') :
    Track c i k r u src w' ∧ (pipeIn w' i).length + flying w' ≤ l.sure ∧
      (line c i k r src w').filter (ofSender k u) = (line c i k r src w).filter (ofSender k u) := by
  obtain ⟨q, s, hq, hj, hs, hu⟩ := ht.listens
  obtain ⟨hqi, hqa⟩ := port_some.1 hq
  have hp' := steps_packed ht.packed h
  cases h with
  | publish x hx =>
    have hin : pipeIn w i = q.inn := (stored_of hq hs).2
    have hlt : q.inn.length < l.sure := by
      have : 1 ≤ flying w := by unfold flying; rw [hx]; simp
      rw [hin] at hr; omega
    obtain ⟨o1, o2, o3, o4, _⟩ := offer_out l pk x i q
    have hq' : (⟨w.ports.mapIdx (World.offer l pk x), none⟩ : World F X).port i = some (World.offer l pk x i q) := by
      rw [port_some]
      simp only [List.getElem?_mapIdx, hqi, Option.map_some, true_and]
      rw [o2]; exact hqa
    have hout : ∀ e, pipeOut (⟨w.ports.mapIdx (World.offer l pk x), none⟩ : World F X) e = pipeOut w e := by
      intro e
      unfold pipeOut
      simp only [List.getElem?_mapIdx]
      cases w.ports[e]? with
      | none => rfl
      | some qe => simp [(offer_out l pk x e qe).1]
    have hs' : (World.offer l pk x i q).ep.findSub k r = some s := by rw [o3]; exact hs
    have htk := offer_takes l pk x i q hqa hj hlt hl
    refine ⟨⟨hp', ⟨_, s, hq', o4 hj, hs', hu⟩, fun e he => by rw [hout]; exact ht.only e he⟩, ?_, ?_⟩
    · rw [(stored_of hq' hs').2, htk]
      rw [hin] at hr
      unfold flying at hr ⊢
      have : (w.ports.mapIdx (World.offer l pk x)).map (fun p => p.out.length) = w.ports.map (fun p => p.out.length) := by
        apply List.ext_getElem?
        intro n
        simp only [List.getElem?_map, List.getElem?_mapIdx]
        cases w.ports[n]? with
        | none => rfl
        | some qe => simp [(offer_out l pk x n qe).1]
      rw [this]
      rw [hx] at hr
      simp at hr ⊢
      omega
    · unfold line inFlight
      rw [(stored_of hq' hs').1, (stored_of hq' hs').2, (stored_of hq hs).1, hin, htk, hout, hx]
      simp only [Option.toList_some, Option.toList_none, decoded_append, List.nil_append, List.append_assoc]
  | read x p hf hp hx =>
    have hport : ∀ e, (⟨w.ports.modify pk.src (fun p => { p with out := p.out.tail }), some x⟩ : World F X).ports[e]? =
        (w.ports[e]?).map (fun p => if pk.src = e then { p with out := p.out.tail } else p) := by
      intro e
      simp only [List.getElem?_modify]
      cases w.ports[e]? <;> by_cases he : pk.src = e <;> simp [he]
    obtain ⟨q', hq', hq1, hq2, hq3⟩ : ∃ q', (⟨w.ports.modify pk.src (fun p => { p with out := p.out.tail }), some x⟩ :
        World F X).port i = some q' ∧ q'.ep = q.ep ∧ q'.joined = q.joined ∧ q'.inn = q.inn := by
      refine ⟨if pk.src = i then { q with out := q.out.tail } else q, ?_, ?_, ?_, ?_⟩
      · rw [port_some, hport, hqi]
        refine ⟨rfl, ?_⟩
        split <;> exact hqa
      all_goals split <;> rfl
    have hs' : q'.ep.findSub k r = some s := by rw [hq1]; exact hs
    obtain ⟨xs, hxs⟩ : ∃ xs, p.out = x :: xs := by
      cases ho : p.out with
      | nil => rw [ho] at hx; simp at hx
      | cons y ys => rw [ho] at hx; simp at hx; exact ⟨ys, by rw [hx]⟩
    have hsrc : pipeOut w pk.src = x :: xs := by
      unfold pipeOut; rw [hp]; simp [hxs]
    have hout : ∀ e, pipeOut (⟨w.ports.modify pk.src (fun p => { p with out := p.out.tail }), some x⟩ : World F X) e =
        if pk.src = e then xs else pipeOut w e := by
      intro e
      unfold pipeOut
      rw [hport]
      by_cases he : pk.src = e
      · subst he; rw [hp]; simp [hxs]
      · cases w.ports[e]? <;> simp [he]
    obtain ⟨m, rfl⟩ := ht.packed.out p (List.mem_of_getElem? hp) x (by rw [hxs]; simp)
    refine ⟨⟨hp', ⟨q', s, hq', hq2.trans hj, hs', hu⟩, fun e he => ?_⟩, ?_, ?_⟩
    · rw [hout]
      split
      · rename_i hse
        subst hse
        have := ht.only pk.src he
        rw [hsrc, decoded_pack hc, List.filter_cons] at this
        split at this
        · cases this
        · exact this
      · exact ht.only e he
    · rw [(stored_of hq' hs').2, hq3, ← (stored_of hq hs).2]
      refine Nat.le_trans (Nat.add_le_add_left ?_ _) hr
      unfold flying
      rw [hf]
      have := sum_modify w.ports pk.src _ p hp hx
      simp only [Option.toList_some, List.length_singleton, Option.toList_none, List.length_nil]
      omega
    · unfold line inFlight
      rw [(stored_of hq' hs').1, (stored_of hq' hs').2, hq3, (stored_of hq hs).1, (stored_of hq hs).2, hout, hf]
      simp only [Option.toList_some, Option.toList_none, List.nil_append, List.singleton_append]
      rw [decoded_pack hc]
      by_cases hse : pk.src = src
      · subst hse; rw [if_pos rfl, hsrc, decoded_pack hc]
      · rw [if_neg hse]
        have := ht.only pk.src hse
        rw [hsrc, decoded_pack hc, List.filter_cons] at this
        have hm : ofSender k u m = false := by
          cases hm : ofSender k u m with
          | false => rfl
          | true => rw [hm] at this; simp at this
        simp only [List.filter_append, List.filter_cons, hm]
        simp

/-- One call. -/
theorem exec_track {l : Limits} {c : Codec F X} (hc : Lawful c) (hl : l.sure ≤ l.hard) {i : Nat} {k : MsgKind} {r u : UID} {src : Nat}
    {w w' : World F X} {call : Call F} (ht : Track c i k r u src w)
    (hroom : IsBus call.op → (pipeIn w i).length + flying w ≤ l.sure) (h1 : call.op ≠ .destroyEndpoint i)
    (h2 : call.op ≠ .unsubscribe i k r) (h3 : call.op ≠ .subRemoveSender i k r u)
    (h4 : ∀ e m, call.op = .send e m → m.sender = u → e = src) (h : w.exec l c call = some (.ok w')) :
    Track c i k r u src w' ∧
    (unloadedNow w i k r call.op ++ line c i k r src w').filter (ofSender k u) =
      (line c i k r src w ++ sentNow w src call.op).filter (ofSender k u) := by
  by_cases hb : IsBus call.op
  · obtain ⟨_, p1, _, p2⟩ := bus_ind hc (fun v => Track c i k r u src v ∧ (pipeIn v i).length + flying v ≤ l.sure ∧
        (line c i k r src v).filter (ofSender k u) = (line c i k r src w).filter (ofSender k u))
      (fun a b pk _ hp hst => by
        obtain ⟨x1, x2, x3⟩ := hp
        obtain ⟨y1, y2, y3⟩ := step_track hc hl x1 x2 hst
        exact ⟨y1, y2, y3.trans x3⟩) hb ht.packed ⟨ht, hroom hb, rfl⟩ h
    refine ⟨p1, ?_⟩
    have e1 : unloadedNow w i k r call.op = [] := by rcases hb with hb | hb <;> rw [hb] <;> rfl
    have e2 : sentNow w src call.op = [] := by rcases hb with hb | hb <;> rw [hb] <;> rfl
    rw [e1, e2, List.nil_append, List.append_nil, p2]
  · exact call_track hc ht hb h1 h2 h3 h4 h

theorem unloaded_cons {l : Limits} {c : Codec F X} {i : Nat} {k : MsgKind} {r : UID} {w w' : World F X} {call : Call F}
    {calls : List (Call F)} (h : w.exec l c call = some (.ok w')) :
    unloaded l c i k r w (call :: calls) = unloadedNow w i k r call.op ++ unloaded l c i k r w' calls := by
  rw [show unloaded l c i k r w (call :: calls) = _ from by unfold unloaded; rfl, h]
  cases call.op <;> rfl

theorem sentVia_cons {l : Limits} {c : Codec F X} {e : Nat} {w w' : World F X} {call : Call F}
    {calls : List (Call F)} (h : w.exec l c call = some (.ok w')) :
    sentVia l c e w (call :: calls) = sentNow w e call.op ++ sentVia l c e w' calls := by
  rw [show sentVia l c e w (call :: calls) = _ from by unfold sentVia; rfl, h]
  cases call.op <;> rfl

theorem run_cons {l : Limits} {c : Codec F X} {w w' : World F X} {call : Call F} {calls : List (Call F)}
    (h : w.run l c (call :: calls) = some (.ok w')) : ∃ w1, w.exec l c call = some (.ok w1) ∧ w1.run l c calls = some (.ok w') := by
  unfold World.run at h
  cases he : w.exec l c call with
  | none => rw [he] at h; cases h
  | some o =>
    rw [he] at h
    cases o with
    | throw e => cases h
    | ub => cases h
    | ok w1 => exact ⟨w1, rfl, h⟩

/-- A history. -/
theorem run_track {l : Limits} {c : Codec F X} (hc : Lawful c) (hl : l.sure ≤ l.hard) {i : Nat} {k : MsgKind} {r u : UID} {src : Nat}
    (calls : List (Call F)) (w w' : World F X) (ht : Track c i k r u src w) (hroom : Roomy l c i w calls)
    (hkeep : ∀ call ∈ calls, call.op ≠ .destroyEndpoint i ∧ call.op ≠ .unsubscribe i k r ∧ call.op ≠ .subRemoveSender i k r u)
    (hsrc : ∀ call ∈ calls, ∀ e m, call.op = .send e m → m.sender = u → e = src) (h : w.run l c calls = some (.ok w')) :
    Track c i k r u src w' ∧
    (unloaded l c i k r w calls ++ line c i k r src w').filter (ofSender k u) =
      (line c i k r src w ++ sentVia l c src w calls).filter (ofSender k u) := by
  induction calls generalizing w with
  | nil =>
    cases h
    exact ⟨ht, by simp [unloaded, sentVia]⟩
  | cons call calls ih =>
    obtain ⟨w1, he, hr⟩ := run_cons h
    obtain ⟨k1, k2, k3⟩ := hkeep call (by simp)
    have hrm : (IsBus call.op → (pipeIn w i).length + flying w ≤ l.sure) ∧ Roomy l c i w1 calls := by
      unfold Roomy at hroom
      rw [he] at hroom
      exact hroom
    obtain ⟨t1, t2⟩ := exec_track hc hl ht hrm.1 k1 k2 k3 (hsrc call (by simp)) he
    obtain ⟨u1, u2⟩ := ih w1 t1 hrm.2 (fun x hx => hkeep x (List.mem_cons_of_mem _ hx))
      (fun x hx => hsrc x (List.mem_cons_of_mem _ hx)) hr
    refine ⟨u1, ?_⟩
    rw [unloaded_cons he, sentVia_cons he, List.append_assoc, List.filter_append, u2]
    rw [List.filter_append (line c i k r src w1), ← List.append_assoc, ← List.filter_append, t2]
    simp [List.filter_append]


/-! ## The other pipes -/

/-- What is in the pipe from `e` after a call that is not the bus's. -/
theorem call_out {l : Limits} {c : Codec F X} (hc : Lawful c) {w w' : World F X} {call : Call F} (hw : AllPacked c w)
    (hop : ¬ IsBus call.op) (h : w.exec l c call = some (.ok w')) (e : Nat) :
    decoded c (pipeOut w' e) = decoded c (pipeOut w e) ++ sentNow w e call.op := by
  by_cases hcr : call.op = .createEndpoint
  · obtain ⟨op, picks, lag⟩ := call
    simp only at hcr
    subst hcr
    simp only [World.exec, Option.some.injEq, Outcome.ok.injEq] at h
    have : pipeOut w' e = pipeOut w e := by
      unfold pipeOut
      rw [← h]
      simp only
      rcases Nat.lt_trichotomy e w.ports.length with he | he | he
      · rw [List.getElem?_append_left he]
      · subst he
        rw [List.getElem?_append_right (Nat.le_refl _), List.getElem?_eq_none (Nat.le_refl _)]
        simp
      · rw [List.getElem?_eq_none (by simp; omega), List.getElem?_eq_none (by omega)]
    rw [this]
    simp [sentNow]
  · obtain ⟨e1, e2, e3⟩ := exec_ports hc hw hop hcr h
    unfold pipeOut
    rw [e3 e]
    cases hpe : w.ports[e]? with
    | none =>
      have : w.port e = none := by unfold World.port; rw [hpe]
      simp only [Option.map_none, Option.getD_none]
      cases call.op <;> simp [sentNow, this, decoded]
    | some qe =>
      simp only [Option.map_some, Option.getD_some]
      rw [portStep_out, decoded_append]
      congr 1
      cases call.op with
      | send e' m =>
        simp only [sentNow]
        by_cases ha : qe.alive = true
        · rw [port_some.2 ⟨hpe, ha⟩]
          by_cases he : e' = e
          · simp [he, ha, decoded, hc.round]
          · simp [he, decoded]
        · have : w.port e = none := by
            unfold World.port; rw [hpe]; simp [ha]
          rw [this]; simp [ha, decoded]
      | _ => rfl

/-- A step of the bus leaves a pipe as it is or takes its first message. -/
theorem steps_out {l : Limits} {w w' : World F X} {pk : Pick} (h : StepsTo l w pk w') (e : Nat) :
    pipeOut w' e = pipeOut w e ∨ pipeOut w' e = (pipeOut w e).tail := by
  cases h with
  | publish x hx =>
    left
    unfold pipeOut
    simp only [List.getElem?_mapIdx]
    cases w.ports[e]? with
    | none => rfl
    | some qe => simp [(offer_out l pk x e qe).1]
  | read x p hf hp hx =>
    by_cases he : pk.src = e
    · right; subst he; unfold pipeOut; simp [hp]
    · left; unfold pipeOut; simp only [List.getElem?_modify]; cases w.ports[e]? <;> simp [he]

/-- Messages of `u` stay in the pipe of `src` as long as they are only sent there. -/
theorem exec_only {l : Limits} {c : Codec F X} (hc : Lawful c) {k : MsgKind} {u : UID} {src : Nat} {w w' : World F X} {call : Call F}
    (hw : AllPacked c w) (ho : ∀ e, e ≠ src → (decoded c (pipeOut w e)).filter (ofSender k u) = [])
    (h4 : ∀ e m, call.op = .send e m → m.sender = u → e = src) (h : w.exec l c call = some (.ok w')) :
    ∀ e, e ≠ src → (decoded c (pipeOut w' e)).filter (ofSender k u) = [] := by
  by_cases hb : IsBus call.op
  · refine (bus_ind hc (fun v => ∀ e, e ≠ src → (decoded c (pipeOut v e)).filter (ofSender k u) = []) ?_ hb hw ho h).2
    intro a b pk ha hp hst e he
    rcases steps_out hst e with h | h
    · rw [h]; exact hp e he
    · have := hp e he
      rw [h]
      cases hx : pipeOut a e with
      | nil => rfl
      | cons x xs =>
        rw [hx, show x :: xs = [x] ++ xs from rfl, decoded_append, List.filter_append] at this
        exact (List.append_eq_nil_iff.1 this).2
  · intro e he
    rw [call_out hc hw hb h, List.filter_append, ho e he, List.nil_append]
    cases hop' : call.op with
    | send e' m =>
      simp only [sentNow]
      split
      · rename_i hc'
        have : ofSender k u m = false := by
          unfold ofSender
          by_cases hm : m.sender = u
          · exact absurd (hc'.1.symm.trans (h4 e' m hop' hm)) he
          · simp [hm]
        simp [this]
      · rfl
    | _ => rfl

theorem run_only {l : Limits} {c : Codec F X} (hc : Lawful c) {k : MsgKind} {u : UID} {src : Nat} (calls : List (Call F))
    (w w' : World F X) (hw : AllPacked c w) (ho : ∀ e, e ≠ src → (decoded c (pipeOut w e)).filter (ofSender k u) = [])
    (hsrc : ∀ call ∈ calls, ∀ e m, call.op = .send e m → m.sender = u → e = src) (h : w.run l c calls = some (.ok w')) :
    ∀ e, e ≠ src → (decoded c (pipeOut w' e)).filter (ofSender k u) = [] := by
  induction calls generalizing w with
  | nil => cases h; exact ho
  | cons call calls ih =>
    obtain ⟨w1, he, hr⟩ := run_cons h
    exact ih w1 (exec_packed hc hw he) (exec_only hc hw ho (hsrc call (by simp)) he)
      (fun x hx => hsrc x (List.mem_cons_of_mem _ hx)) hr

theorem init_only {c : Codec F X} {k : MsgKind} {u : UID} {src : Nat} :
    ∀ e, e ≠ src → (decoded c (pipeOut (World.init : World F X) e)).filter (ofSender k u) = [] := by
  intro e _; simp [pipeOut, World.init, decoded]

theorem run_cons_eq {l : Limits} {c : Codec F X} {w w1 : World F X} {call : Call F} {calls : List (Call F)}
    (h : w.exec l c call = some (.ok w1)) : w.run l c (call :: calls) = w1.run l c calls := by
  simp only [World.run, h]

theorem run_append {l : Limits} {c : Codec F X} (a b : List (Call F)) (w w1 : World F X) (h : w.run l c a = some (.ok w1)) :
    w.run l c (a ++ b) = w1.run l c b := by
  induction a generalizing w with
  | nil => cases h; rfl
  | cons call a ih =>
    obtain ⟨w2, he, hr⟩ := run_cons h
    rw [List.cons_append, run_cons_eq he]
    exact ih w2 hr

theorem run_split {l : Limits} {c : Codec F X} (a b : List (Call F)) (w w' : World F X) (h : w.run l c (a ++ b) = some (.ok w')) :
    ∃ w1, w.run l c a = some (.ok w1) ∧ w1.run l c b = some (.ok w') := by
  induction a generalizing w with
  | nil => exact ⟨w, rfl, h⟩
  | cons call a ih =>
    obtain ⟨w2, he, hr⟩ := run_cons (calls := a ++ b) h
    obtain ⟨w1, h1, h2⟩ := ih w2 hr
    exact ⟨w1, by rw [run_cons_eq he]; exact h1, h2⟩

/-- After routing nothing is in flight. -/
theorem route_clear {l : Limits} {c : Codec F X} (hc : Lawful c) {w w' : World F X} {call : Call F} (hw : AllPacked c w)
    (hop : call.op = .route) (h : w.exec l c call = some (.ok w')) : w'.frame = none ∧ ∀ e, pipeOut w' e = [] := by
  obtain ⟨op, picks, lag⟩ := call
  simp only at hop
  subst hop
  simp only [World.exec] at h
  obtain ⟨r, hr, he⟩ := Option.map_eq_some_iff.1 h
  cases he
  obtain ⟨_, _, h1, h2⟩ := routeLoop_ind hc (fun _ => True) (fun _ _ _ _ _ _ => trivial) picks w 0 r.1 r.2 hw trivial hr
  refine ⟨h1, fun e => ?_⟩
  unfold pipeOut
  cases hp : r.1.ports[e]? with
  | none => rfl
  | some p =>
    have := List.all_eq_true.1 h2 p (List.mem_of_getElem? hp)
    simpa using this

/-! ## Routing -/

/-- The messages in all pipes to the bus. -/
def outs (w : World F X) : List X := w.ports.flatMap (fun p => p.out)

theorem outs_read (ps : List (Port F X)) (n : Nat) (x : X) (p : Port F X) (hp : ps[n]? = some p) (hx : p.out.head? = some x) :
    (x :: (ps.modify n (fun p => { p with out := p.out.tail })).flatMap (fun p => p.out)).Perm (ps.flatMap (fun p => p.out)) := by
  induction ps generalizing n with
  | nil => simp at hp
  | cons q qs ih =>
    cases n with
    | zero =>
      simp only [List.getElem?_cons_zero, Option.some.injEq] at hp
      subst hp
      cases ho : q.out with
      | nil => rw [ho] at hx; simp at hx
      | cons y ys =>
        rw [ho] at hx
        simp only [List.head?_cons, Option.some.injEq] at hx
        subst hx
        simp [ho]
    | succ n =>
      simp only [List.getElem?_cons_succ] at hp
      simp only [List.modify_succ_cons, List.flatMap_cons]
      exact (List.perm_middle.symm).trans ((ih n hp).append_left _)

theorem outs_publish (l : Limits) (pk : Pick) (x : X) (ps : List (Port F X)) :
    (ps.mapIdx (World.offer l pk x)).flatMap (fun p => p.out) = ps.flatMap (fun p => p.out) := by
  rw [List.flatMap_def, List.flatMap_def]
  congr 1
  apply List.ext_getElem?
  intro n
  simp only [List.getElem?_map, List.getElem?_mapIdx]
  cases ps[n]? with
  | none => rfl
  | some q => simp [(offer_out l pk x n q).1]

theorem outs_length (w : World F X) : (w.frame.toList ++ outs w).length = flying w := by
  unfold outs flying
  rw [List.length_append, List.length_flatMap]

/-- How many frames the bus has still to read: two for each message in a pipe. -/
def frames (w : World F X) : Nat := w.frame.toList.length + 2 * (outs w).length

theorem steps_frames {l : Limits} {w w' : World F X} {pk : Pick} (h : StepsTo l w pk w') : frames w = frames w' + 1 := by
  cases h with
  | publish x hx =>
    unfold frames outs
    rw [outs_publish, hx]
    simp; omega
  | read x p hf hp hx =>
    have := (outs_read w.ports pk.src x p hp hx).length_eq
    unfold frames outs
    rw [hf]
    simp only [List.length_cons] at this
    simp only [Option.toList_some, Option.toList_none, List.length_singleton, List.length_nil]
    omega

theorem idle_outs {w : World F X} (h : w.idle = true) : outs w = [] := by
  unfold outs
  rw [List.flatMap_eq_nil_iff]
  intro p hp
  simpa using List.all_eq_true.1 h p hp

theorem routeLoop_count {l : Limits} {c : Codec F X} (hc : Lawful c) (pks : List Pick) (w w' : World F X) (n n' : Nat) (hw : AllPacked c w)
    (h : World.routeLoop l c pks w n = some (w', n')) : n' = n + frames w ∧ pks.length = frames w + 1 := by
  induction pks generalizing w n with
  | nil => cases h
  | cons pk pks ih =>
    unfold World.routeLoop at h
    cases hs : w.step l c pk with
    | none => rw [hs] at h; cases h
    | some r =>
      obtain ⟨w1, k⟩ := r
      rw [hs] at h
      rcases step_cases hc hw hs with ⟨rfl, hst⟩ | ⟨rfl, rfl, hf, hi⟩
      · obtain ⟨a, b⟩ := ih w1 _ (steps_packed hw hst) h
        have := steps_frames hst
        have a' : n' = n + 1 + frames w1 := a
        rw [List.length_cons]
        exact ⟨by omega, by omega⟩
      · simp only at h
        split at h
        · rename_i hnil
          simp only [Option.some.injEq, Prod.mk.injEq] at h
          obtain ⟨rfl, rfl⟩ := h
          have : frames w1 = 0 := by unfold frames; rw [idle_outs hi, hf]; rfl
          rw [this, hnil]
          exact ⟨rfl, rfl⟩
        · cases h

/-- Something can be read if the bus is not idle. -/
theorem not_idle {w : World F X} (h : w.idle = false) : ∃ (n : Nat) (p : Port F X) (x : X), w.ports[n]? = some p ∧ p.out.head? = some x := by
  unfold World.idle at h
  obtain ⟨p, hp, hne⟩ := List.all_eq_false.1 h
  obtain ⟨n, hn⟩ := List.mem_iff_getElem?.1 hp
  cases ho : p.out with
  | nil => rw [ho] at hne; simp at hne
  | cons x xs => exact ⟨n, p, x, hn, by rw [ho]; rfl⟩

/-- Routing has a schedule that ends it, whatever ZeroMQ attaches and delays meanwhile. -/
theorem routeLoop_exists {l : Limits} {c : Codec F X} (hc : Lawful c) (joins lag : List Nat) (n : Nat) (w : World F X) (k : Nat)
    (hw : AllPacked c w) (hn : frames w = n) :
    ∃ pks w' k', World.routeLoop l c pks w k = some (w', k') ∧ ∀ pk ∈ pks, pk.joins = joins ∧ pk.lag = lag := by
  induction n generalizing w k with
  | zero =>
    have hf : w.frame = none := by
      unfold frames at hn; cases h : w.frame with
      | none => rfl
      | some x => rw [h] at hn; simp at hn
    have hi : w.idle = true := by
      cases h : w.idle with
      | true => rfl
      | false =>
        obtain ⟨m, p, x, hp, hx⟩ := not_idle h
        have := (outs_read w.ports m x p hp hx).length_eq
        unfold frames outs at hn
        simp only [List.length_cons] at this
        omega
    refine ⟨[⟨w.ports.length, joins, lag⟩], w, k, ?_, by simp⟩
    have : w.step l c ⟨w.ports.length, joins, lag⟩ = some (w, 0) := by
      unfold World.step
      rw [hf]
      simp [hi]
    simp [World.routeLoop, this]
  | succ n ih =>
    obtain ⟨pk, w1, hs, hst, hj⟩ : ∃ pk w1, w.step l c pk = some (w1, 1) ∧ StepsTo l w pk w1 ∧ (pk.joins = joins ∧ pk.lag = lag) := by
      cases hf : w.frame with
      | some x =>
        obtain ⟨m, rfl⟩ := hw.frame x (by rw [hf]; simp)
        refine ⟨⟨0, joins, lag⟩, _, ?_, .publish _ hf, rfl, rfl⟩
        unfold World.step
        rw [hf]
        simp only [if_neg (hc.size m).1, if_neg (hc.size m).2]
      | none =>
        have hi : w.idle = false := by
          cases h : w.idle with
          | false => rfl
          | true => unfold frames at hn; rw [idle_outs h, hf] at hn; simp at hn
        obtain ⟨m, p, x, hp, hx⟩ := not_idle hi
        refine ⟨⟨m, joins, lag⟩, _, ?_, .read x p hf hp hx, rfl, rfl⟩
        unfold World.step
        rw [hf]
        simp [hp, hx]
    obtain ⟨pks, w', k', e1, e2⟩ := ih w1 (k + 1) (steps_packed hw hst) (by have := steps_frames hst; omega)
    refine ⟨pk :: pks, w', k', ?_, ?_⟩
    · unfold World.routeLoop
      rw [hs]
      exact e1
    · intro p hp
      rcases List.mem_cons.1 hp with rfl | hp
      · exact hj
      · exact e2 p hp

/-- Every connected endpoint with room gets everything. -/
theorem steps_everyone {l : Limits} {w w' : World F X} {pk : Pick} (hl : l.sure ≤ l.hard) (i : Nat) (T : List X) (base : List X)
    (hcon : Connected w i) (hroom : (pipeIn w i).length + flying w ≤ l.sure)
    (hp : ∃ ys, pipeIn w i = base ++ ys ∧ (ys ++ (w.frame.toList ++ outs w)).Perm T) (h : StepsTo l w pk w') :
    Connected w' i ∧ (pipeIn w' i).length + flying w' ≤ l.sure ∧
      ∃ ys, pipeIn w' i = base ++ ys ∧ (ys ++ (w'.frame.toList ++ outs w')).Perm T := by
  obtain ⟨q, hq, hj⟩ := hcon
  obtain ⟨hqi, hqa⟩ := port_some.1 hq
  obtain ⟨ys, hy1, hy2⟩ := hp
  have hin : pipeIn w i = q.inn := by unfold pipeIn; rw [hq]; rfl
  cases h with
  | publish x hx =>
    have hf1 : flying w = 1 + (outs w).length := by rw [← outs_length, hx]; simp; omega
    have hlt : q.inn.length < l.sure := by rw [hin] at hroom; omega
    obtain ⟨o1, o2, o3, o4, _⟩ := offer_out l pk x i q
    have hq' : (⟨w.ports.mapIdx (World.offer l pk x), none⟩ : World F X).port i = some (World.offer l pk x i q) := by
      rw [port_some]
      simp only [List.getElem?_mapIdx, hqi, Option.map_some, true_and]
      rw [o2]; exact hqa
    have htk := offer_takes l pk x i q hqa hj hlt hl
    have hin' : pipeIn (⟨w.ports.mapIdx (World.offer l pk x), none⟩ : World F X) i = q.inn ++ [x] := by
      unfold pipeIn; rw [hq', ← htk]; rfl
    have ho : outs (⟨w.ports.mapIdx (World.offer l pk x), none⟩ : World F X) = outs w := outs_publish l pk x w.ports
    refine ⟨⟨_, hq', o4 hj⟩, ?_, ys ++ [x], ?_, ?_⟩
    · rw [← outs_length, ho, hin']
      rw [hin] at hroom
      simp only [List.length_append, Option.toList_none, List.length_nil, List.length_singleton]
      omega
    · rw [hin', ← hin, hy1, List.append_assoc]
    · rw [ho, List.append_assoc]
      rw [hx] at hy2
      simpa using hy2
  | read x p hf hp hx =>
    have hport : (⟨w.ports.modify pk.src (fun p => { p with out := p.out.tail }), some x⟩ : World F X).ports[i]? =
        some (if pk.src = i then { q with out := q.out.tail } else q) := by
      simp only [List.getElem?_modify, hqi]
      by_cases he : pk.src = i <;> simp [he]
    have hq' : (⟨w.ports.modify pk.src (fun p => { p with out := p.out.tail }), some x⟩ : World F X).port i =
        some (if pk.src = i then { q with out := q.out.tail } else q) := by
      rw [port_some]; refine ⟨hport, ?_⟩; split <;> exact hqa
    have hin' : pipeIn (⟨w.ports.modify pk.src (fun p => { p with out := p.out.tail }), some x⟩ : World F X) i = q.inn := by
      unfold pipeIn; rw [hq']; by_cases he : pk.src = i <;> simp [he]
    have hperm : ([x] ++ outs (⟨w.ports.modify pk.src (fun p => { p with out := p.out.tail }), some x⟩ : World F X)).Perm (outs w) :=
      outs_read w.ports pk.src x p hp hx
    have hfl : flying (⟨w.ports.modify pk.src (fun p => { p with out := p.out.tail }), some x⟩ : World F X) = flying w := by
      rw [← outs_length, ← outs_length, hf]
      exact hperm.length_eq
    refine ⟨⟨_, hq', ?_⟩, ?_, ys, ?_, ?_⟩
    · split <;> exact hj
    · rw [hin', hfl, ← hin]; exact hroom
    · rw [hin', ← hin, hy1]
    · refine List.Perm.trans (List.Perm.append_left ys ?_) hy2
      rw [hf]
      exact hperm

end Knp.Zmq
