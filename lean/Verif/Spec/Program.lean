import Verif.Model.Program
import Verif.Spec.Learn

/-!
# What a program sees of its own run

A run is a list of `Item`s: iterations of the executor's loop, pre-step calls that ended a run, reads of output channels.  From what
the program's own functions returned one can say, without bus, endpoints or subscriptions, which messages are on their way to
the backend and what every output channel holds.
-/

namespace Knp.Spec
open Knp Knp.Sys Knp.Prog

variable {F : Type}

/-- The message of a channel or handler: nothing is sent without spikes. -/
def message (uid : UID) (time : Nat) (spikes : List Nat) : List SpikeMessage :=
  if spikes = [] then [] else [⟨⟨uid, time⟩, spikes⟩]

/-- Messages the backend has not seen yet: of every input channel, of every handler. -/
structure Waiting where
  channels : List (List SpikeMessage)
  handlers : List (List SpikeMessage)

/-- Before the first iteration nothing is waiting. -/
def Waiting.none (L : Layout) : Waiting := ⟨L.inputs.map (fun _ => []), L.handlers.map (fun _ => [])⟩

/-- What the input channels send when their generators return `fed`. -/
def fedBy (L : Layout) (time : Nat) (fed : List (List Nat)) : List (List SpikeMessage) :=
  List.zipWith (fun u g => message u time g) L.inputs fed

/-- What input channel `k`, with UID `u`, sends in an item of a run. -/
def fedIn (u : UID) (k : Nat) : Item F → List SpikeMessage
  | .iter i => message u i.time (i.fed.getD k [])
  | .halt t fed => message u t (fed.getD k [])
  | .read _ _ _ _ => []

/-- An iteration takes everything that is waiting; then the handlers answer, with the number of the next step.  A pre-step call
that ends a run leaves the channels' messages waiting. -/
def Waiting.after (L : Layout) (w : Waiting) : Item F → Waiting
  | .iter i => ⟨L.inputs.map (fun _ => []), List.zipWith (fun h x => message h.uid (i.time + 1) x.2) L.handlers i.handled⟩
  | .halt t fed => { w with channels := List.zipWith (· ++ ·) w.channels (fedBy L t fed) }
  | .read _ _ _ _ => w

/-- What is waiting after a run. -/
def waiting (L : Layout) (tr : List (Item F)) : Waiting := tr.foldl (Waiting.after L) (Waiting.none L)

/-- What iteration `i` gives to the backend when `w` was waiting: channel by channel, then handler by handler. -/
def Waiting.into (L : Layout) (w : Waiting) (i : Iter F) : List SpikeMessage :=
  (List.zipWith (· ++ ·) w.channels (fedBy L i.time i.fed)).flatten ++ w.handlers.flatten

/-- The messages from outside that iteration `i` works with, after the run `before`. -/
def external (L : Layout) (before : List (Item F)) (i : Iter F) : List SpikeMessage := (waiting L before).into L i

/-- The spike messages on the bus during iteration `i`, from populations, then from outside. -/
def spikesDuring (L : Layout) (before : List (Item F)) (i : Iter F) : List SpikeMessage :=
  i.out.spikes ++ external L before i

/-- Everything on the bus during iteration `i`. -/
def busDuring (L : Layout) (before : List (Item F)) (i : Iter F) : List (Message F) :=
  i.out.impacts.map .impact ++ (spikesDuring L before i).map .spike

/-- What output channel `n`, listening to `xs`, holds after one more item (`before` is the run so far). -/
def bufferAfter (L : Layout) (n : Nat) (xs : List UID) (before : List (Item F)) (buf : List SpikeMessage) :
    Item F → List SpikeMessage
  | .iter i => buf ++ (spikesDuring L before i).filter (fun x => decide (x.header.senderUid ∈ xs))
  | .halt _ _ => buf
  | .read c a b _ => if c = n then buf.filter (fun x => !decide (a ≤ x.header.sendTime ∧ x.header.sendTime ≤ b)) else buf

/-- What output channel `n` holds after the run `before ++ rest`, if it holds `buf` after `before`. -/
def bufferFrom (L : Layout) (n : Nat) (xs : List UID) : List (Item F) → List SpikeMessage → List (Item F) → List SpikeMessage
  | _, buf, [] => buf
  | before, buf, it :: rest => bufferFrom L n xs (before ++ [it]) (bufferAfter L n xs before buf it) rest

/-- What output channel `n` holds after the run `tr`. -/
def bufferOf (L : Layout) (n : Nat) (xs : List UID) (tr : List (Item F)) : List SpikeMessage := bufferFrom L n xs [] [] tr

/-- The iterations of a run. -/
def iters (tr : List (Item F)) : List (Iter F) := tr.filterMap (fun it => match it with | .iter i => some i | _ => none)

/-- What every iteration gives to the backend, from the run `before` on. -/
def externalsFrom (L : Layout) : List (Item F) → List (Item F) → List (List SpikeMessage)
  | _, [] => []
  | before, .iter i :: rest => external L before i :: externalsFrom L (before ++ [.iter i]) rest
  | before, it :: rest => externalsFrom L (before ++ [it]) rest

/-- What every iteration of a run gives to the backend. -/
def externals (L : Layout) (tr : List (Item F)) : List (List SpikeMessage) := externalsFrom L [] tr

/-- Everything the senders `xs` sent during a run, iteration by iteration. -/
def arrivals (L : Layout) (xs : List UID) (tr : List (Item F)) : List SpikeMessage :=
  (List.zipWith (fun (i : Iter F) e => (i.out.spikes ++ e).filter (fun x => decide (x.header.senderUid ∈ xs))) (iters tr)
    (externals L tr)).flatten

/-- Everything read from output channel `n` during a run. -/
def taken (n : Nat) (tr : List (Item F)) : List SpikeMessage :=
  tr.flatMap (fun it => match it with | .read c _ _ got => if c = n then got else [] | _ => [])

/-- Calls `f` for every number of a list, in turn; every call sees the state the call before left. -/
def inTurn {σ β : Type} (f : Nat → σ → β × σ) : List Nat → σ → List β × σ
  | [], u => ([], u)
  | k :: ks, u => ((f k u).1 :: (inTurn f ks (f k u).2).1, (inTurn f ks (f k u).2).2)

/-- The program's functions along a run that starts with the program's state `u` and ends with `u'`.  In an iteration: every
generator in turn with the step number, the predicate, every handler in turn with what it got, every observer in turn with
what it got. -/
def UserRun {σ : Type} (L : Layout) (c : Code σ F) : σ → List (Act σ) → List (Item F) → σ → Prop
  | u, [], [], u' => u = u'
  | u, .iterate p :: as, .iter i :: is, u' =>
    let g := inTurn (fun k u => c.gen k u i.time) (List.range L.inputs.length) u
    let h := inTurn (fun k u => c.handle k u ((i.handled.map (·.1)).getD k [])) (List.range L.handlers.length) (p g.2)
    let b := inTurn (fun k u => ((), c.observe k u (i.observed.getD k []))) (List.range L.observers.length) h.2
    i.fed = g.1 ∧ i.handled.map (·.2) = h.1 ∧ UserRun L c b.2 as is u'
  | u, .halt p :: as, .halt t fed :: is, u' =>
    let g := inTurn (fun k u => c.gen k u t) (List.range L.inputs.length) u
    fed = g.1 ∧ UserRun L c (p g.2) as is u'
  | u, .read n a b _ :: as, .read n' a' b' _ :: is, u' => (n, a, b) = (n', a', b') ∧ UserRun L c u as is u'
  | _, _, _, _ => False

end Knp.Spec
