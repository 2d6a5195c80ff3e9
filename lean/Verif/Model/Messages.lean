import Verif.Model.Basic

/-!
# Messages

Models `knp/core-library/include/knp/core/messaging/*.h` and
`knp/core-library/impl/messaging/*.cpp`, `impl/message_header.cpp`.

`F` is the type of impact values (C++ `float`).  It is arbitrary: no law of arithmetic is used.
-/

namespace Knp

/-- A UID as a number.  Only equality of UIDs is used by the messaging code; the byte-level UID is
modelled in `Verif/Model/Uid.lean`.  `0` stands for the nil UID. -/
abbrev UID := Nat

/-- `OutputType` (knp/synapse-traits-library/include/knp/synapse-traits/output_types.h:36-62). -/
inductive OutputType where
  | excitatory
  | inhibitoryCurrent
  | inhibitoryConductance
  | dopamine
  | blocking
deriving Repr, DecidableEq

namespace OutputType
/-- `static_cast<int>(type)`: the enumerator values (output_types.h:41-61). -/
def toInt : OutputType → Nat
  | excitatory => 0
  | inhibitoryCurrent => 1
  | inhibitoryConductance => 2
  | dopamine => 3
  | blocking => 4

/-- `static_cast<OutputType>(int)`; a value with no enumerator is not represented (`none`). -/
def ofInt : Nat → Option OutputType
  | 0 => some excitatory
  | 1 => some inhibitoryCurrent
  | 2 => some inhibitoryConductance
  | 3 => some dopamine
  | 4 => some blocking
  | _ => none
end OutputType

/-- `MessageHeader` (message_header.h:39-49). -/
structure MessageHeader where
  senderUid : UID
  sendTime : Nat
deriving Repr, DecidableEq

/-- `SpikeMessage` (spike_message.h:52-67). -/
structure SpikeMessage where
  header : MessageHeader
  neuronIndexes : List Nat
deriving Repr, DecidableEq

/-- `SynapticImpact` (synaptic_impact_message.h:45-78). -/
structure SynapticImpact (F : Type) where
  connectionIndex : Nat
  impactValue : F
  synapseType : OutputType
  presynapticNeuronIndex : Nat
  postsynapticNeuronIndex : Nat
deriving Repr, DecidableEq

/-- `SynapticImpactMessage` (synaptic_impact_message.h:89-123). -/
structure SynapticImpactMessage (F : Type) where
  header : MessageHeader
  presynapticPopulationUid : UID
  postsynapticPopulationUid : UID
  isForcing : Bool
  impacts : List (SynapticImpact F)
deriving Repr, DecidableEq

/-- `MessageVariant` (message_envelope.h:49, messaging.h:40). -/
inductive Message (F : Type) where
  | spike (m : SpikeMessage)
  | impact (m : SynapticImpactMessage F)
deriving Repr, DecidableEq

/-- The two message types, as selected by a template argument. -/
inductive MsgKind where
  | spike
  | impact
deriving Repr, DecidableEq

namespace Message
variable {F : Type}

/-- `message.index()`. -/
def kind : Message F → MsgKind
  | spike _ => .spike
  | impact _ => .impact

/-- `get_header(message)` (message_endpoint.cpp:48-51). -/
def header : Message F → MessageHeader
  | spike m => m.header
  | impact m => m.header

/-- The sender a message names in its header. -/
def sender (m : Message F) : UID := m.header.senderUid
end Message

/-! ## Equality operators -/

/-- `SynapticImpact::operator==` (synaptic_impact_message.cpp:33-38): the synapse type is not compared. -/
def SynapticImpact.eqOp {F : Type} [BEq F] (a b : SynapticImpact F) : Bool :=
  a.connectionIndex == b.connectionIndex &&
  a.presynapticNeuronIndex == b.presynapticNeuronIndex &&
  a.postsynapticNeuronIndex == b.postsynapticNeuronIndex && a.impactValue == b.impactValue

/-- `operator==` of `std::vector`: same length and pairwise `operator==`. -/
def vectorEq {α : Type} (eq : α → α → Bool) : List α → List α → Bool
  | [], [] => true
  | a :: as, b :: bs => eq a b && vectorEq eq as bs
  | _, _ => false

/-- `operator==(SpikeMessage, SpikeMessage)` (spike_message.cpp:31-35). -/
def SpikeMessage.eqOp (a b : SpikeMessage) : Bool :=
  a.header.sendTime == b.header.sendTime && a.header.senderUid == b.header.senderUid &&
  vectorEq (fun x y => x == y) a.neuronIndexes b.neuronIndexes

/-- `operator==(SynapticImpactMessage, SynapticImpactMessage)` (synaptic_impact_message.cpp:41-47). -/
def SynapticImpactMessage.eqOp {F : Type} [BEq F] (a b : SynapticImpactMessage F) : Bool :=
  a.header.sendTime == b.header.sendTime && a.header.senderUid == b.header.senderUid &&
  a.presynapticPopulationUid == b.presynapticPopulationUid &&
  a.postsynapticPopulationUid == b.postsynapticPopulationUid && a.isForcing == b.isForcing &&
  vectorEq SynapticImpact.eqOp a.impacts b.impacts

/-! ## Envelopes

Flatbuffers is modelled by its accessor contract: a table is the record of the fields it was built
with; the union is a type tag plus the table.  The byte layout is not modelled.  The field order of
the generated constructors follows `impl/messaging/fbs/*.fbs`. -/

/-- `marshal::SpikeMessage` (spike_message.fbs). -/
structure FbSpike where
  headerUid : UID
  headerTime : Nat
  neuronIndexes : List Nat
deriving Repr, DecidableEq

/-- `marshal::SynapticImpact` (synaptic_impact_message.fbs); `output_type` is a signed byte. -/
structure FbImpact (F : Type) where
  connectionIndex : Nat
  impactValue : F
  outputType : Nat
  pre : Nat
  post : Nat
deriving Repr, DecidableEq

/-- `marshal::SynapticImpactMessage` (synaptic_impact_message.fbs). -/
structure FbImpactMsg (F : Type) where
  headerUid : UID
  headerTime : Nat
  preUid : UID
  postUid : UID
  isForcing : Bool
  impacts : List (FbImpact F)
deriving Repr, DecidableEq

/-- The table the union refers to. -/
inductive FbTable (F : Type) where
  | none
  | spike (t : FbSpike)
  | impact (t : FbImpactMsg F)
deriving Repr, DecidableEq

/-- `marshal::MessageEnvelope` (message_envelope.fbs): union tag and table. -/
structure FbEnvelope (F : Type) where
  messageType : Nat
  message : FbTable F
deriving Repr, DecidableEq

section envelope
variable {F : Type}

/-- `pack_internal(builder, SpikeMessage)` (spike_message.cpp:72-79). -/
def packSpike (m : SpikeMessage) : FbSpike :=
  { headerUid := m.header.senderUid, headerTime := m.header.sendTime, neuronIndexes := m.neuronIndexes }

/-- Lambda of `pack_internal` (synaptic_impact_message.cpp:107-113). -/
def packImpact (i : SynapticImpact F) : FbImpact F :=
  { connectionIndex := i.connectionIndex, impactValue := i.impactValue, outputType := i.synapseType.toInt,
    pre := i.presynapticNeuronIndex, post := i.postsynapticNeuronIndex }

/-- `pack_internal(builder, SynapticImpactMessage)` (synaptic_impact_message.cpp:96-121). -/
def packImpactMsg (m : SynapticImpactMessage F) : FbImpactMsg F :=
  { headerUid := m.header.senderUid, headerTime := m.header.sendTime,
    preUid := m.presynapticPopulationUid, postUid := m.postsynapticPopulationUid,
    isForcing := m.isForcing, impacts := m.impacts.map packImpact }

/-- `message.index()`. -/
def Message.index : Message F → Nat
  | .spike _ => 0
  | .impact _ => 1

/-- `pack_to_envelope` (message_envelope.cpp:40-60): tag is the variant index plus one. -/
def packToEnvelope (m : Message F) : FbEnvelope F :=
  { messageType := m.index + 1,
    message := match m with
      | .spike s => .spike (packSpike s)
      | .impact i => .impact (packImpactMsg i) }

/-- `unpack(marshal::SpikeMessage*)` (spike_message.cpp:92-108). -/
def unpackSpike (t : FbSpike) : SpikeMessage :=
  { header := { senderUid := t.headerUid, sendTime := t.headerTime }, neuronIndexes := t.neuronIndexes }

/-- Lambda of `unpack` (synaptic_impact_message.cpp:158-164).  An out-of-range enumerator keeps no
meaning in the model and is mapped to `none`. -/
def unpackImpact (t : FbImpact F) : Option (SynapticImpact F) :=
  (OutputType.ofInt t.outputType).map fun ty =>
    { connectionIndex := t.connectionIndex, impactValue := t.impactValue, synapseType := ty,
      presynapticNeuronIndex := t.pre, postsynapticNeuronIndex := t.post }

/-- `unpack(marshal::SynapticImpactMessage*)` (synaptic_impact_message.cpp:135-168). -/
def unpackImpactMsg (t : FbImpactMsg F) : Option (SynapticImpactMessage F) :=
  (t.impacts.mapM unpackImpact).map fun is =>
    { header := { senderUid := t.headerUid, sendTime := t.headerTime },
      presynapticPopulationUid := t.preUid, postsynapticPopulationUid := t.postUid,
      isForcing := t.isForcing, impacts := is }

/-- `extract_from_envelope` (message_envelope.cpp:63-79).  `message_as_X()` is a null pointer when the
tag and the table disagree, and dereferencing it is undefined behaviour. -/
def extractFromEnvelope (e : FbEnvelope F) : Outcome (Message F) :=
  if e.messageType = 1 then
    match e.message with
    | .spike t => .ok (.spike (unpackSpike t))
    | _ => .ub
  else if e.messageType = 2 then
    match e.message with
    | .impact t =>
      match unpackImpactMsg t with
      | some m => .ok (.impact m)
      | none => .ub
    | _ => .ub
  else .throw "Unknown message type."

end envelope

/-! ## Text streams

A stream is the sequence of its whitespace separated tokens.  Integers and UIDs are printed and parsed
exactly.  `T` is the text of a floating point value, `print`/`parse` its formatting. -/

/-- A whitespace separated token. -/
inductive Tok (T : Type) where
  | int (n : Nat)
  | real (t : T)
deriving Repr, DecidableEq

section text
variable {F T : Type}

/-- `operator<<(ostream, SpikeMessage)` (spike_message.cpp:48-53). -/
def writeSpike (m : SpikeMessage) : List (Tok T) :=
  .int m.header.senderUid :: .int m.header.sendTime :: .int m.neuronIndexes.length ::
    m.neuronIndexes.map .int

/-- `stream >> integer`. -/
def readInt : List (Tok T) → Option (Nat × List (Tok T))
  | .int n :: s => some (n, s)
  | _ => none

/-- The element loop `for i < count: stream >> x[i]`. -/
def readInts : Nat → List (Tok T) → Option (List Nat × List (Tok T))
  | 0, s => some ([], s)
  | k + 1, s => do
    let (n, s) ← readInt s
    let (ns, s) ← readInts k s
    pure (n :: ns, s)

/-- `operator>>(istream, SpikeMessage&)` (spike_message.cpp:56-69); `old` is the object read into.
A parse failure of the stream is `none`. -/
def readSpike (old : SpikeMessage) (s : List (Tok T)) : Option (SpikeMessage × List (Tok T)) := do
  let (u, s) ← readInt s
  let (t, s) ← readInt s
  let (c, s) ← readInt s
  let hdr : MessageHeader := { senderUid := u, sendTime := t }
  if c = 0 then pure ({ old with header := hdr }, s)
  else
    let (ns, s) ← readInts c s
    pure ({ header := hdr, neuronIndexes := ns }, s)

/-- `operator<<(ostream, SynapticImpact)` (synaptic_impact_message.cpp:60-65). -/
def writeImpact (print : F → T) (i : SynapticImpact F) : List (Tok T) :=
  [.int i.connectionIndex, .real (print i.impactValue), .int i.synapseType.toInt,
   .int i.presynapticNeuronIndex, .int i.postsynapticNeuronIndex]

/-- `stream >> float`. -/
def readReal (parse : T → Option F) : List (Tok T) → Option (F × List (Tok T))
  | .real t :: s => (parse t).map (·, s)
  | _ => none

/-- `operator>>(istream, SynapticImpact&)` (synaptic_impact_message.cpp:50-57). -/
def readImpact (parse : T → Option F) (s : List (Tok T)) :
    Option (SynapticImpact F × List (Tok T)) := do
  let (c, s) ← readInt s
  let (v, s) ← readReal parse s
  let (ty, s) ← readInt s
  let (a, s) ← readInt s
  let (b, s) ← readInt s
  let ty ← OutputType.ofInt ty
  pure ({ connectionIndex := c, impactValue := v, synapseType := ty,
          presynapticNeuronIndex := a, postsynapticNeuronIndex := b }, s)

/-- The loop over impacts (synaptic_impact_message.cpp:88-91). -/
def readImpacts (parse : T → Option F) : Nat → List (Tok T) →
    Option (List (SynapticImpact F) × List (Tok T))
  | 0, s => some ([], s)
  | k + 1, s => do
    let (i, s) ← readImpact parse s
    let (is, s) ← readImpacts parse k s
    pure (i :: is, s)

/-- `operator<<(ostream, SynapticImpactMessage)` (synaptic_impact_message.cpp:68-74,
message_header.cpp:33-37): note the order post, pre. -/
def writeImpactMsg (print : F → T) (m : SynapticImpactMessage F) : List (Tok T) :=
  .int m.header.senderUid :: .int m.header.sendTime :: .int m.postsynapticPopulationUid ::
    .int m.presynapticPopulationUid :: .int (if m.isForcing then 1 else 0) ::
    .int m.impacts.length :: m.impacts.flatMap (writeImpact print)

/-- `operator>>(istream, SynapticImpactMessage&)` (synaptic_impact_message.cpp:77-93,
message_header.cpp:27-31). -/
def readImpactMsg (parse : T → Option F) (old : SynapticImpactMessage F) (s : List (Tok T)) :
    Option (SynapticImpactMessage F × List (Tok T)) := do
  let (u, s) ← readInt s
  let (t, s) ← readInt s
  let (post, s) ← readInt s
  let (pre, s) ← readInt s
  let (f, s) ← readInt s
  let (c, s) ← readInt s
  let m : SynapticImpactMessage F :=
    { header := { senderUid := u, sendTime := t }, presynapticPopulationUid := pre,
      postsynapticPopulationUid := post, isForcing := !(f == 0), impacts := old.impacts }
  if c = 0 then pure (m, s)
  else
    let (is, s) ← readImpacts parse c s
    pure ({ m with impacts := is }, s)

/-- `std::ostream << float` for integer-valued floats below 10^7 with the default precision of 6
significant digits (C++ standard, `%g` with precision 6): seven-digit numbers are rounded to a multiple of
ten, half to even as glibc does.  Used only for the refutation witness of C16. -/
def printG6 (n : Nat) : Nat :=
  if n < 1000000 then n
  else
    let q := n / 10
    let r := n % 10
    if r < 5 then q * 10 else if r > 5 then (q + 1) * 10
    else if q % 2 = 0 then q * 10 else (q + 1) * 10

end text
end Knp
