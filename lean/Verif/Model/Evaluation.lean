import Verif.Model.Dataset

/-!
# Evaluation of classification runs

`knp/base-framework/impl/inference_evaluation/classification/processor.cpp`,
`knp/base-framework/include/knp/framework/inference_evaluation/classification/result.h`,
`knp/base-framework/impl/inference_evaluation/perfomance_metrics.cpp`.
-/

namespace Knp.Eval
open Knp Knp.Data

/-- `InferenceResult` (result.h:36-72). -/
structure Counts where
  tp : Nat
  fn : Nat
  fp : Nat
  tn : Nat
deriving DecidableEq, Repr

/-- `InferenceResult::get_total_votes` (result.h:71). -/
def Counts.totalVotes (c : Counts) : Nat := c.tp + c.fn + c.fp

/-- `EvaluationHelper::Prediction` (processor.cpp:43-47). -/
structure Prediction where
  cls : Nat
  votes : Nat
deriving DecidableEq, Repr

/-- `++class_votes_[i % classes]` for all spikes (processor.cpp:67); a remainder by 0 is undefined. -/
def addVotes (classes : Nat) : List Nat → List Nat → Outcome (List Nat)
  | votes, [] => .ok votes
  | votes, i :: is => if classes = 0 then .ub else addVotes classes (votes.modify (i % classes) (· + 1)) is

/-- The loop that chooses the class (processor.cpp:70-80); `i` is the class of the head of the list. -/
def choose : List Nat → (i best cls : Nat) → Prediction
  | [], _, best, cls => ⟨cls, best⟩
  | v :: vs, i, best, cls => if v > best then choose vs (i + 1) v i else choose vs (i + 1) best cls

/-- State of `EvaluationHelper`. -/
structure Helper where
  preds : List Prediction
  votes : List Nat
deriving DecidableEq, Repr

/-- `EvaluationHelper::process_spikes` (processor.cpp:65-84). -/
def processSpikes (classes spf : Nat) (h : Helper) (spikes : List Nat) (step : Nat) : Outcome Helper :=
  match addVotes classes h.votes spikes with
  | .ok v =>
    if spf = 0 then .ub
    else if (step + 1) % spf = 0 then .ok ⟨h.preds ++ [choose v 0 0 0], v.map (fun _ => 0)⟩
    else .ok ⟨h.preds, v⟩
  | .throw w => .throw w
  | .ub => .ub

/-- The loop over the steps of `process_inference_results` (processor.cpp:120-132): the messages stamped with the step are taken
from the front of the list. -/
def evalLoop (classes spf : Nat) : Nat → Nat → List SpikeMessage → Helper → Outcome Helper
  | 0, _, _, h => .ok h
  | n + 1, step, msgs, h =>
    match processSpikes classes spf h
        ((msgs.takeWhile (fun m => m.header.sendTime == step)).flatMap (fun m => m.neuronIndexes)) step with
    | .ok h' => evalLoop classes spf n (step + 1) (msgs.dropWhile (fun m => m.header.sendTime == step)) h'
    | .throw w => .throw w
    | .ub => .ub

/-- The counter that one prediction increments (processor.cpp:96-101). -/
def bump (p : Prediction) (label : Nat) (c : Counts) : Counts :=
  if p.votes = 0 then { c with fn := c.fn + 1 }
  else if p.cls ≠ label then { c with fp := c.fp + 1 }
  else { c with tp := c.tp + 1 }

/-- The loop of `process_inference_predictions` (processor.cpp:90-102); `labels` are the labels of the frames from the first
inference frame on to the end of the dataset; reading past it, or a label that is not a class, is undefined. -/
def countLoop : List Prediction → List Nat → List Counts → Outcome (List Counts)
  | [], _, res => .ok res
  | _ :: _, [], _ => .ub
  | p :: ps, l :: ls, res => if l < res.length then countLoop ps ls (res.modify l (bump p l)) else .ub

/-- `predictions_.size() - tp - fn - fp` (processor.cpp:107), on `size_t`. -/
def trueNegatives (total : Nat) (c : Counts) : Nat := subU64 (subU64 (subU64 total c.tp) c.fn) c.fp

/-- `process_inference_predictions` (processor.cpp:87-111). -/
def countPredictions (d : Dataset) (preds : List Prediction) : Outcome (List Counts) :=
  match countLoop preds ((d.frames.drop d.trainN).map (fun f => f.1)) (List.replicate d.classes ⟨0, 0, 0, 0⟩) with
  | .ok res => .ok (res.map (fun c => { c with tn := trueNegatives preds.length c }))
  | .throw w => .throw w
  | .ub => .ub

/-- The predictions of a run (processor.cpp:118-132). -/
def predictions (d : Dataset) (msgs : List SpikeMessage) : Outcome (List Prediction) :=
  match evalLoop d.classes d.stepsPerFrame d.stepsInference 0 msgs ⟨[], List.replicate d.classes 0⟩ with
  | .ok h => .ok h.preds
  | .throw w => .throw w
  | .ub => .ub

/-- `process_inference_results` (processor.cpp:114-135). -/
def evaluate (d : Dataset) (msgs : List SpikeMessage) : Outcome (List Counts) :=
  match predictions d msgs with
  | .ok preds => countPredictions d preds
  | .throw w => .throw w
  | .ub => .ub

/-! ## Metrics -/

section Metrics
variable {F : Type}

/-- Arithmetic used by the metrics; `ofNat` converts `size_t` to `float`. -/
structure MetricOps (F : Type) where
  zero : F
  two : F
  ofNat : Nat → F
  add : F → F → F
  mul : F → F → F
  div : F → F → F
  isZero : F → Bool

/-- `get_precision` (perfomance_metrics.cpp:28-32). Sums of counters fit `size_t`. -/
def precision (o : MetricOps F) (tp fp : Nat) : F := if tp + fp = 0 then o.zero else o.div (o.ofNat tp) (o.ofNat (tp + fp))

/-- `get_recall` (perfomance_metrics.cpp:35-39). -/
def recall (o : MetricOps F) (tp fn : Nat) : F := if tp + fn = 0 then o.zero else o.div (o.ofNat tp) (o.ofNat (tp + fn))

/-- `get_prevalence` (perfomance_metrics.cpp:42-47). -/
def prevalence (o : MetricOps F) (tp fn fp tn : Nat) : F :=
  if tp + fn + fp + tn = 0 then o.zero else o.div (o.ofNat (tp + fn)) (o.ofNat (tp + fn + fp + tn))

/-- `get_accuracy` (perfomance_metrics.cpp:50-55). -/
def accuracy (o : MetricOps F) (tp fn fp tn : Nat) : F :=
  if tp + fn + fp + tn = 0 then o.zero else o.div (o.ofNat (tp + tn)) (o.ofNat (tp + fn + fp + tn))

/-- `get_f_score` (perfomance_metrics.cpp:58-62). -/
def fScore (o : MetricOps F) (p r : F) : F :=
  if o.isZero (o.mul p r) then o.zero else o.div (o.mul (o.mul o.two p) r) (o.add p r)

/-- A row of the report. -/
structure Row (F : Type) where
  label : Nat
  total : Nat
  counts : Counts
  precision : F
  recall : F
  prevalence : F
  accuracy : F
  fScore : F

/-- One line of `write_inference_results_to_stream_as_csv` (processor.cpp:144-158). -/
def row (o : MetricOps F) (label : Nat) (c : Counts) : Row F :=
  let p := Eval.precision o c.tp c.fp
  let r := Eval.recall o c.tp c.fp
  { label, total := c.totalVotes, counts := c, precision := p, recall := r,
    prevalence := Eval.prevalence o c.tp c.fn c.fp c.tn, accuracy := Eval.accuracy o c.tp c.fn c.fp c.tn,
    fScore := Eval.fScore o p r }

/-- All lines (processor.cpp:142-159). -/
def report (o : MetricOps F) (res : List Counts) : List (Row F) := res.zipIdx.map (fun x => row o x.2 x.1)

end Metrics

end Knp.Eval
