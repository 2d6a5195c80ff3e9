import Verif.Model.Messages

/-! # C15–C17: envelopes, text streams and equality of messages -/

namespace Knp.Props
open Knp

private theorem ofInt_toInt (t : OutputType) : OutputType.ofInt t.toInt = some t := by
  cases t <;> rfl

private theorem unpack_pack_impact {F : Type} (i : SynapticImpact F) :
    unpackImpact (packImpact i) = some i := by
  simp [unpackImpact, packImpact, ofInt_toInt]

private theorem mapM_unpack {F : Type} (l : List (SynapticImpact F)) :
    (l.map packImpact).mapM unpackImpact = some l := by
  induction l with
  | nil => rfl
  | cons a l ih => simp [unpack_pack_impact, ih]

/-- C15: for every message of every kind, with any number of spikes/impacts, unpacking the packed
envelope gives back that message. -/
theorem C15_envelope_round_trip {F : Type} (m : Message F) :
    extractFromEnvelope (packToEnvelope m) = .ok m := by
  cases m with
  | spike s => simp [extractFromEnvelope, packToEnvelope, Message.index, unpackSpike, packSpike]
  | impact i =>
    simp only [extractFromEnvelope, packToEnvelope, Message.index, unpackImpactMsg, packImpactMsg,
      mapM_unpack]
    rfl

/-- C15: an envelope is rejected with an exception exactly when its tag names neither message kind (in
particular for the tag 0 = "NONE"). -/
theorem C15_unknown_tag_throws {F : Type} (e : FbEnvelope F) :
    (extractFromEnvelope e = .throw "Unknown message type.") ↔
      (e.messageType ≠ 1 ∧ e.messageType ≠ 2) := by
  unfold extractFromEnvelope
  constructor
  · intro h
    split at h
    · split at h <;> cases h
    · split at h
      · split at h
        · split at h <;> cases h
        · cases h
      · rename_i h1 h2; exact ⟨h1, h2⟩
  · rintro ⟨h1, h2⟩; simp [h1, h2]

/-- C15: distinct messages never share an envelope. -/
theorem C15_envelope_injective {F : Type} (m n : Message F) (h : packToEnvelope m = packToEnvelope n) :
    m = n := by
  have hm := C15_envelope_round_trip m
  rw [h, C15_envelope_round_trip n] at hm
  cases hm; rfl

example : extractFromEnvelope (packToEnvelope (.impact
    (.mk (.mk 7 3) 1 2 true [.mk 0 5 .blocking 1 2, .mk 1 6 .dopamine 0 0] : SynapticImpactMessage Nat)))
    = .ok (.impact (.mk (.mk 7 3) 1 2 true [.mk 0 5 .blocking 1 2, .mk 1 6 .dopamine 0 0])) := by decide

/-! ## C16 -/

private theorem readInts_write {T : Type} (l : List Nat) (s : List (Tok T)) :
    readInts l.length (l.map .int ++ s) = some (l, s) := by
  induction l with
  | nil => rfl
  | cons a l ih => simp [readInts, readInt, ih]

private theorem readImpacts_write {F T : Type} (print : F → T) (parse : T → Option F)
    (l : List (SynapticImpact F)) (h : ∀ i ∈ l, parse (print i.impactValue) = some i.impactValue)
    (s : List (Tok T)) :
    readImpacts parse l.length (l.flatMap (writeImpact print) ++ s) = some (l, s) := by
  induction l with
  | nil => rfl
  | cons a l ih =>
    have h1 := h a (by simp)
    have ih := ih (fun i hi => h i (List.mem_cons_of_mem _ hi))
    simp only [List.length_cons, List.flatMap_cons, List.append_assoc]
    simp [readImpacts, readImpact, writeImpact, readInt, readReal, h1, ofInt_toInt, ih]

/-- C16, full statement: whatever object is read into, and whatever its impact values are, reading back
the written text gives the message and consumes exactly it.  (`print`/`parse` are the stream's
formatting of floats.) -/
def C16_statement {F T : Type} (print : F → T) (parse : T → Option F) : Prop :=
  (∀ (m old : SpikeMessage) (s : List (Tok T)), readSpike old (writeSpike m ++ s) = some (m, s)) ∧
  (∀ (m old : SynapticImpactMessage F) (s : List (Tok T)),
    readImpactMsg parse old (writeImpactMsg print m ++ s) = some (m, s))

/-- C16 is false even with perfect formatting of numbers: reading a message without spikes into an
object that holds spikes keeps the old spikes. -/
theorem C16_text_round_trip_refuted {F T : Type} (print : F → T) (parse : T → Option F) :
    ¬ C16_statement print parse := by
  intro h
  have := h.1 { header := ⟨1, 1⟩, neuronIndexes := [] } { header := ⟨2, 2⟩, neuronIndexes := [9] } []
  simp [readSpike, writeSpike, readInt] at this

/-- The same defect for impact messages. -/
theorem C16_impact_stale_refuted {F T : Type} (print : F → T) (parse : T → Option F) (x : F) :
    ∃ (m old : SynapticImpactMessage F), m.impacts = [] ∧
      ∃ r, readImpactMsg parse old (writeImpactMsg print m) = some (r, []) ∧ r ≠ m ∧
        r.impacts = old.impacts := by
  refine ⟨.mk ⟨1, 1⟩ 3 4 false [], .mk ⟨2, 2⟩ 5 6 true [.mk 0 x .excitatory 0 0], rfl, _, rfl, ?_, rfl⟩
  intro h
  have := congrArg SynapticImpactMessage.impacts h
  simp at this

/-- C16 also fails into a fresh object: the default stream precision (6 significant digits) loses the
impact value 1234567 (exactly representable as a float). -/
theorem C16_float_precision_refuted :
    ∃ (m old : SynapticImpactMessage Nat), old.impacts = [] ∧
      readImpactMsg some old (writeImpactMsg printG6 m) ≠ some (m, []) := by
  refine ⟨.mk ⟨1, 1⟩ 3 4 false [.mk 0 1234567 .excitatory 0 0], .mk ⟨0, 0⟩ 0 0 false [], rfl, ?_⟩
  decide

/-- C16, strongest part that holds: any message whose impact values survive formatting is read back
exactly (and exactly its tokens are consumed) provided the message is non-empty or the target object
holds no spikes/impacts. -/
theorem C16_text_round_trip_partial {F T : Type} (print : F → T) (parse : T → Option F) :
    (∀ (m old : SpikeMessage) (s : List (Tok T)), (m.neuronIndexes ≠ [] ∨ old.neuronIndexes = []) →
      readSpike old (writeSpike m ++ s) = some (m, s)) ∧
    (∀ (m old : SynapticImpactMessage F) (s : List (Tok T)), (m.impacts ≠ [] ∨ old.impacts = []) →
      (∀ i ∈ m.impacts, parse (print i.impactValue) = some i.impactValue) →
      readImpactMsg parse old (writeImpactMsg print m ++ s) = some (m, s)) := by
  constructor
  · intro m old s h
    obtain ⟨⟨u, t⟩, l⟩ := m
    cases l with
    | nil =>
      have : old.neuronIndexes = [] := by simpa using h
      simp [readSpike, writeSpike, readInt, this]
    | cons a l =>
      have := readInts_write (a :: l) s
      simp only [List.length_cons, List.map_cons, List.cons_append] at this
      simp only [readSpike, writeSpike, readInt, List.cons_append, List.length_cons]
      simp only [Option.bind_eq_bind, Option.bind_some]
      simp [this]
  · intro m old s h hp
    obtain ⟨⟨u, t⟩, pre, post, f, l⟩ := m
    cases l with
    | nil =>
      have : old.impacts = [] := by simpa using h
      cases f <;> simp [readImpactMsg, writeImpactMsg, readInt, this]
    | cons a l =>
      have := readImpacts_write print parse (a :: l) hp s
      simp only [List.length_cons, List.flatMap_cons, List.append_assoc] at this
      simp only [readImpactMsg, writeImpactMsg, readInt, List.cons_append, List.length_cons]
      simp only [Option.bind_eq_bind, Option.bind_some]
      cases f <;> simp [this]

/-- Reading `k` spike messages one after another, each into a fresh object. -/
def readSpikeSeq {T : Type} (fresh : SpikeMessage) :
    Nat → List (Tok T) → Option (List SpikeMessage × List (Tok T))
  | 0, s => some ([], s)
  | k + 1, s => do
    let (m, s) ← readSpike fresh s
    let (ms, s) ← readSpikeSeq fresh k s
    pure (m :: ms, s)

/-- C16 for files: any sequence of spike messages (empty ones included) written one after another to a
stream is read back in order, each into a fresh object. -/
theorem C16_stream_of_spikes {T : Type} (ms : List SpikeMessage) (s : List (Tok T))
    (fresh : SpikeMessage) (hf : fresh.neuronIndexes = []) :
    readSpikeSeq fresh ms.length (ms.flatMap writeSpike ++ s) = some (ms, s) := by
  induction ms with
  | nil => rfl
  | cons m ms ih =>
    have h1 := (C16_text_round_trip_partial (F := T) id some).1 m fresh
      (ms.flatMap writeSpike ++ s) (.inr hf)
    simp only [List.length_cons, List.flatMap_cons, List.append_assoc, readSpikeSeq]
    rw [h1]
    simp [ih]

example : readSpikeSeq (.mk ⟨0, 0⟩ []) 3
    (([.mk ⟨1, 1⟩ [4, 5], .mk ⟨1, 2⟩ [], .mk ⟨2, 2⟩ [6]] : List SpikeMessage).flatMap
      (writeSpike (T := Nat))) =
    some ([.mk ⟨1, 1⟩ [4, 5], .mk ⟨1, 2⟩ [], .mk ⟨2, 2⟩ [6]], []) := by decide

example : readImpactMsg (F := Nat) some (.mk ⟨9, 9⟩ 9 9 true [])
    (writeImpactMsg printG6 (.mk ⟨1, 2⟩ 3 4 false [.mk 0 123456 .dopamine 5 6])) =
    some (.mk ⟨1, 2⟩ 3 4 false [.mk 0 123456 .dopamine 5 6], []) := by decide

/-! ## C17 -/

/-- C17, full statement: `==` on impacts holds exactly for impacts with equal content. -/
def C17_statement : Prop :=
  ∀ a b : SynapticImpact Nat, a.eqOp b = true ↔ a = b

/-- C17 is false: an excitatory and an inhibitory impact compare equal (and so do messages holding
them). -/
theorem C17_impact_equality_refuted : ¬ C17_statement := by
  intro h
  have := (h (.mk 0 5 .excitatory 1 2) (.mk 0 5 .inhibitoryCurrent 1 2)).1 (by decide)
  exact absurd this (by decide)

/-- Equality of messages is wrong in the same way. -/
theorem C17_message_equality_refuted :
    ∃ a b : SynapticImpactMessage Nat, a.eqOp b = true ∧ a ≠ b :=
  ⟨.mk ⟨1, 1⟩ 2 3 true [.mk 0 5 .excitatory 1 2], .mk ⟨1, 1⟩ 2 3 true [.mk 0 5 .blocking 1 2],
    by decide, by decide⟩

/-- C17, what holds: with an exact comparison of values, `==` on impacts holds exactly when every field
but the synapse type is equal. -/
theorem C17_impact_equality_partial {F : Type} [BEq F] [LawfulBEq F] (a b : SynapticImpact F) :
    a.eqOp b = true ↔ { a with synapseType := b.synapseType } = b := by
  obtain ⟨a1, a2, a3, a4, a5⟩ := a
  obtain ⟨b1, b2, b3, b4, b5⟩ := b
  simp [SynapticImpact.eqOp]
  constructor
  · rintro ⟨⟨⟨h1, h2⟩, h3⟩, h4⟩; exact ⟨h1, h4, h2, h3⟩
  · rintro ⟨h1, h4, h2, h3⟩; exact ⟨⟨⟨h1, h2⟩, h3⟩, h4⟩

private theorem vectorEq_impacts {F : Type} [BEq F] [LawfulBEq F] (l m : List (SynapticImpact F)) :
    vectorEq SynapticImpact.eqOp l m = true ↔
      l.map (fun i => { i with synapseType := .excitatory }) = m.map (fun i => { i with synapseType := .excitatory }) := by
  induction l generalizing m with
  | nil => cases m <;> simp [vectorEq]
  | cons a l ih =>
    cases m with
    | nil => simp [vectorEq]
    | cons b m =>
      simp only [vectorEq, Bool.and_eq_true, List.map_cons, List.cons.injEq, ih m, C17_impact_equality_partial]
      have : { a with synapseType := b.synapseType } = b ↔
          ({ a with synapseType := .excitatory } : SynapticImpact F) = { b with synapseType := .excitatory } := by
        obtain ⟨a1, a2, a3, a4, a5⟩ := a
        obtain ⟨b1, b2, b3, b4, b5⟩ := b
        simp
      rw [this]

/-- C17 for whole impact messages, what holds: `==` holds exactly when the headers, both population UIDs, the forcing flag and the
impacts up to their synapse types are equal. -/
theorem C17_message_equality_partial {F : Type} [BEq F] [LawfulBEq F] (a b : SynapticImpactMessage F) :
    a.eqOp b = true ↔ a.header = b.header ∧ a.presynapticPopulationUid = b.presynapticPopulationUid ∧
      a.postsynapticPopulationUid = b.postsynapticPopulationUid ∧ a.isForcing = b.isForcing ∧
      a.impacts.map (fun i => { i with synapseType := .excitatory }) = b.impacts.map (fun i => { i with synapseType := .excitatory }) := by
  obtain ⟨⟨a1, a2⟩, a3, a4, a5, a6⟩ := a
  obtain ⟨⟨b1, b2⟩, b3, b4, b5, b6⟩ := b
  simp only [SynapticImpactMessage.eqOp, Bool.and_eq_true, vectorEq_impacts, beq_iff_eq, MessageHeader.mk.injEq]
  constructor
  · rintro ⟨⟨⟨⟨⟨h1, h2⟩, h3⟩, h4⟩, h5⟩, h6⟩; exact ⟨⟨h2, h1⟩, h3, h4, h5, h6⟩
  · rintro ⟨⟨h2, h1⟩, h3, h4, h5, h6⟩; exact ⟨⟨⟨⟨⟨h1, h2⟩, h3⟩, h4⟩, h5⟩, h6⟩

example : (⟨⟨1, 1⟩, 2, 3, true, [⟨0, 5, .excitatory, 1, 2⟩]⟩ : SynapticImpactMessage Nat).eqOp
    ⟨⟨1, 1⟩, 2, 3, false, [⟨0, 5, .excitatory, 1, 2⟩]⟩ = false := by decide

private theorem vectorEq_beq (l m : List Nat) : vectorEq (fun x y => x == y) l m = true ↔ l = m := by
  induction l generalizing m with
  | nil => cases m <;> simp [vectorEq]
  | cons a l ih => cases m <;> simp [vectorEq, ih]

/-- C17 for spike messages: `==` is equality of content. -/
theorem C17_spike_equality (a b : SpikeMessage) : a.eqOp b = true ↔ a = b := by
  obtain ⟨⟨a1, a2⟩, a3⟩ := a
  obtain ⟨⟨b1, b2⟩, b3⟩ := b
  simp [SpikeMessage.eqOp, vectorEq_beq]
  exact fun _ => And.comm

end Knp.Props
