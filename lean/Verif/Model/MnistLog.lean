import Verif.Model.MnistInference
import Verif.Model.ProgramLog

/-!
# The MNIST example: its logs

Models the logs `/repo/examples/mnist-learn/inference.h` and `training.h` write: the names of the senders, the raw spikes log, and
the weights log (`add_projection_weights_logger`) called as the executor calls its observers.
-/

namespace Knp.Prog
open Knp

variable {σ P F : Type}

/-- A projection as the weights log sees it (model.cpp:50-62): only resource STDP projections of delta synapses can be read. -/
def logProj (j : Learn.Proj F) : Mon.LogProj F :=
  (j.ident.uid, match j.syns with
    | .resource _ ss _ _ => some (ss.map (fun x => ⟨x.source, x.target, x.weight, x.rule.resource, x.rule.lastSpikeStep⟩))
    | _ => none)

/-- What the weights logger (model.cpp:73-105, 202-208; it has no senders and is called in every iteration) writes during an action that leaves the state
`s`: in an iteration it is called after the step, with the step counter already increased, and reads the projections of the backend
(`get_network_data`). -/
def weightsWritten (period : Nat) (uid : UID) (s : State σ P (Learn.Proj F) F) : Item F → Outcome (List (Mon.WTok F))
  | .iter _ => Mon.weightsLog period uid s.core.step (s.core.projs.map logProj)
  | _ => .ok []

/-- What it has written after the actions of a program. -/
def weightsLogRun (step : Stepper P (Learn.Proj F) F) (L : Layout) (c : Code σ F) (period : Nat) (uid : UID) :
    State σ P (Learn.Proj F) F → List (Act σ) → Outcome (List (Mon.WTok F))
  | _, [] => .ok []
  | s, x :: xs =>
    match act step L c s x with
    | .throw w => .throw w
    | .ub => .ub
    | .ok (s1, i) =>
      match weightsWritten period uid s1 i with
      | .throw w => .throw w
      | .ub => .ub
      | .ok l =>
        match weightsLogRun step L c period uid s1 xs with
        | .throw w => .throw w
        | .ub => .ub
        | .ok ls => .ok (l ++ ls)

end Knp.Prog

namespace Knp.Mnist
open Knp

variable {F M : Type}

/-- `pop_names` (inference.h:63-66, 115; training.h: the same): the populations of the network with their names, every winner-take-all handler as `wta`. -/
def logNames (popName : UID → M) (wta : M) (pops : List UID) (handlers : List UID) : List (UID × M) :=
  pops.map (fun v => (v, popName v)) ++ handlers.map (fun v => (v, wta))

/-- The names of the inference program (`wta_uids` is what `add_wta_handlers` returned, inference.h:111-112). -/
def inferNames {N : Type} (popName : UID → M) (wta : M) (a : Annotated F) (u : Uids) (pops : List (Learn.Pop N (Neurons.Blifat F) F)) : List (UID × M) :=
  logNames popName wta (pops.map Learn.Pop.uid) (Prog.addWtaHandlers u.handler 0 ⟨[], [], [], []⟩ a.wtaData).2

/-- A line of `spikes_inference_raw.csv` (inference.h:152-153); name `none` is "UNKNOWN". -/
structure RawRow (M : Type) where
  time : Nat
  name : Option M
  uid : UID
  neuron : Nat
deriving Repr, DecidableEq

/-- The observer function of the raw spikes log (inference.h:142-156). -/
def rawRows (names : List (UID × M)) (msgs : List SpikeMessage) : List (RawRow M) :=
  msgs.flatMap (fun m => m.neuronIndexes.map (fun n => ⟨m.header.sendTime, names.lookup m.header.senderUid, m.header.senderUid, n⟩))

/-- The raw spikes log after some calls, without the line with the names of the columns (l. 132). -/
def rawLog (names : List (UID × M)) (calls : List Mon.Call) : List (RawRow M) := calls.flatMap (fun c => rawRows names c.msgs)

end Knp.Mnist
