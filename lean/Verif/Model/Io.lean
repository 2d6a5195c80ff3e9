import Verif.Model.Basic
import Verif.Model.Messages

/-!
# Input and output channels and converters

Models `knp/base-framework/impl/output_channel.cpp`, `impl/input_converter.cpp` and the headers in
`knp/base-framework/include/knp/framework/io/`.
-/

namespace Knp.Io
open Knp

/-! ## Output channel -/

/-- `OutputChannel::message_buffer_` (output_channel.h:112). -/
structure OutputChannel where
  buffer : List SpikeMessage
deriving Repr, DecidableEq

/-- `OutputChannel::update` (output_channel.cpp:38-51); `incoming` is what `unload_messages` returns. -/
def OutputChannel.update (c : OutputChannel) (incoming : List SpikeMessage) :
    OutputChannel × List SpikeMessage :=
  let b := c.buffer ++ incoming
  (⟨b⟩, b)

/-- Binary search for the end of the prefix satisfying `p` (`std::lower_bound`/`std::upper_bound`,
output_channel.cpp:61-62).  The standard requires the range to be partitioned by `p`; otherwise the
call is undefined. -/
def partitionPoint {α : Type} (p : α → Bool) (l : List α) : Outcome Nat :=
  if (l.dropWhile p).any p then .ub else .ok (l.takeWhile p).length

/-- `OutputChannel::read_some_from_buffer` (output_channel.cpp:54-67).  `maxSize` is
`vector::max_size()`; `reserve` with a larger request throws.  Moving or erasing an iterator range whose
begin lies behind its end is undefined. -/
def OutputChannel.readSome (maxSize : Nat) (c : OutputChannel) (start final : Nat) :
    Outcome (OutputChannel × List SpikeMessage) :=
  if maxSize < addU64 (addU64 start final) 1 then .throw "length_error"
  else
    match partitionPoint (fun m => decide (m.header.sendTime < start)) c.buffer,
        partitionPoint (fun m => !decide (final < m.header.sendTime)) c.buffer with
    | .ok b, .ok e =>
      if b ≤ e then .ok (⟨c.buffer.take b ++ c.buffer.drop e⟩, (c.buffer.take e).drop b) else .ub
    | _, _ => .ub

/-! ## Output converters -/

/-- The inner loop body of `converter_bitwise` (convert_bitwise.h:53-56). -/
def markAll (size : Nat) : List Nat → List Bool → List Bool
  | [], r => r
  | i :: is, r => markAll size is (if i < size then r.set i true else r)

/-- `converter_bitwise` (convert_bitwise.h:47-59). -/
def converterBitwise (msgs : List SpikeMessage) (size : Nat) : List Bool :=
  msgs.foldl (fun r m => markAll size m.neuronIndexes r) (List.replicate size false)

/-- The inner loop of `converter_count` (convert_count.h:53-56). -/
def countAll (size : Nat) : List Nat → List Nat → List Nat
  | [], r => r
  | i :: is, r => countAll size is (if i < size then r.modify i (· + 1) else r)

/-- `converter_count` (convert_count.h:47-59). -/
def converterCount (msgs : List SpikeMessage) (size : Nat) : List Nat :=
  msgs.foldl (fun r m => countAll size m.neuronIndexes r) (List.replicate size 0)

/-- `std::set<SpikeIndex>::insert`: ordered, no duplicates. -/
def setInsert (a : Nat) : List Nat → List Nat
  | [] => [a]
  | b :: l => if a < b then a :: b :: l else if a = b then b :: l else b :: setInsert a l

/-- `ConvertToSet::operator()` (convert_set.h:59-71): insert everything, then erase from
`lower_bound(output_size)` to the end. -/
def convertToSet (size : Nat) (msgs : List SpikeMessage) : List Nat :=
  (msgs.foldl (fun r m => m.neuronIndexes.foldl (fun r i => setInsert i r) r) []).takeWhile
    (fun x => decide (x < size))

/-! ## Input channel -/

/-- An input channel: UID, generator, and the messages it has given to its endpoint. -/
structure InputChannel where
  uid : UID
  gen : Nat → List Nat
  sent : List SpikeMessage

/-- `InputChannel::send` / `send_data` (input_channel.h:99-120). -/
def InputChannel.send (c : InputChannel) (step : Nat) : InputChannel × Bool :=
  let spikes := c.gen step
  if spikes.isEmpty then (c, false)
  else ({ c with sent := c.sent ++ [⟨⟨c.uid, step⟩, spikes⟩] }, true)

/-! ## Index converter -/

/-- `isspace` in the "C" locale. -/
def isSpace (c : Char) : Bool :=
  c == ' ' || c == '\t' || c == '\n' || c == '\r' || c == '\x0b' || c == '\x0c'

/-- A decimal digit. -/
def isDigit (c : Char) : Bool := '0'.toNat ≤ c.toNat && c.toNat ≤ '9'.toNat

/-- Value of a digit character. -/
def digitVal (c : Char) : Nat := c.toNat - '0'.toNat

/-- Digits from the left, as `strtoul` accumulates them. -/
def accDigits : List Char → Nat → Nat
  | [], acc => acc
  | c :: cs, acc => if isDigit c then accDigits cs (acc * 10 + digitVal c) else acc

/-- An optional sign. -/
def splitSign : List Char → Bool × List Char
  | [] => (false, [])
  | c :: r => if c == '+' then (false, r) else if c == '-' then (true, r) else (false, c :: r)

/-- `std::stoul(s)` in base 10: leading white space, an optional sign, at least one digit; anything after
the digits is ignored; `-n` gives `2^64 - n`. -/
def stoul (s : List Char) : Outcome Nat :=
  let s1 := s.dropWhile isSpace
  let neg := (splitSign s1).1
  let s2 := (splitSign s1).2
  match s2 with
  | [] => .throw "invalid_argument"
  | c :: _ =>
    if isDigit c then
      let v := accDigits s2 0
      if v < two64 then .ok (if neg then (two64 - v) % two64 else v) else .throw "out_of_range"
    else .throw "invalid_argument"

/-- Offset of the first `delim` at or after offset `k`, or the length (`std::find`). -/
def findFrom (delim : Char) (s : List Char) (k : Nat) : Nat :=
  k + ((s.drop k).takeWhile (fun c => c != delim)).length

/-- The loop of `IndexConverter::operator()` (input_converter.cpp:40-48) with the offsets of `iter_first`
and `iter_second`; every round consumes at least one character, so `s.length + 1` rounds suffice.  `substr`'s
second argument is, as in the code, the *offset* `iter_second - begin`, not a length; `push_back` converts
to the 32-bit `SpikeIndex`. -/
def indexLoop (delim : Char) (s : List Char) : Nat → Nat → Nat → List Nat → Outcome (List Nat)
  | 0, _, _, acc => .ok acc
  | fuel + 1, first, second, acc =>
    if first < s.length then
      let second' := findFrom delim s (second + 1)
      match stoul ((s.drop first).take second') with
      | .ok v =>
        let acc' := acc ++ [v % 4294967296]
        if second' < s.length then indexLoop delim s fuel (second' + 1) second' acc' else .ok acc'
      | .throw w => .throw w
      | .ub => .ub
    else .ok acc

/-- `IndexConverter::operator()` (input_converter.cpp:30-50): the indexes and the rest of the stream.
`std::getline` takes the characters up to and including the next newline. -/
def indexConverter (delim : Char) (stream : List Char) : Outcome (List Nat × List Char) :=
  let line := stream.takeWhile (· != '\n')
  let rest := (stream.dropWhile (· != '\n')).drop 1
  match indexLoop delim line (line.length + 1) 0 0 [] with
  | .ok l => .ok (l, rest)
  | .throw w => .throw w
  | .ub => .ub

/-! ## Sequence converter -/

/-- `SequenceConverter::operator()` (sequence_converter.h:76-92) from position `i`; the stream is the list of
values `>>` yields.  Reading past the end leaves the local `value` uninitialised: undefined. -/
def sequenceLoop {V : Type} (interpret : V → Bool) : Nat → Nat → List V → List Nat →
    Outcome (List Nat × List V)
  | 0, _, st, acc => .ok (acc, st)
  | _ + 1, _, [], _ => .ub
  | n + 1, i, v :: st, acc => sequenceLoop interpret n (i + 1) st (if interpret v then acc ++ [i] else acc)

/-- `SequenceConverter::operator()` (sequence_converter.h:76-92). -/
def sequenceConverter {V : Type} (interpret : V → Bool) (size : Nat) (stream : List V) :
    Outcome (List Nat × List V) := sequenceLoop interpret size 0 stream []

/-- `interpret_with_threshold` (input_interpreters.h:54-59) for an arbitrary `operator<`. -/
def interpretWithThreshold {V : Type} (lt : V → V → Bool) (threshold : V) (v : V) : Bool :=
  !(lt v threshold)

end Knp.Io
