import Verif.Spec.System

/-!
# The same, `n` steps later
-/

namespace Knp.Spec
open Knp

variable {N F : Type}

/-- A message header with its step moved on by `n`. -/
def laterH (n : Nat) (h : MessageHeader) : MessageHeader := ⟨h.senderUid, h.sendTime + n⟩

/-- The same spikes, sent `n` steps later. -/
def laterS (n : Nat) (m : SpikeMessage) : SpikeMessage := ⟨laterH n m.header, m.neuronIndexes⟩

/-- The same impacts, sent `n` steps later. -/
def laterI (n : Nat) (m : SynapticImpactMessage F) : SynapticImpactMessage F := { m with header := laterH n m.header }

/-- The same message, sent `n` steps later. -/
def laterM (n : Nat) : Message F → Message F
  | .spike m => .spike (laterS n m)
  | .impact m => .impact (laterI n m)

/-- What a step did, `n` steps later: all messages are the same but for the step they carry. -/
def laterO (n : Nat) (o : Sys.StepOut F) : Sys.StepOut F where
  given := o.given.map (fun g => (g.1, g.2.map (laterI n)))
  spikes := o.spikes.map (laterS n)
  heard := o.heard.map (fun g => (g.1, g.2.map (laterS n)))
  impacts := o.impacts.map (laterI n)

/-- A projection whose waiting impacts are due `n` steps later. -/
def laterJ (n : Nat) (j : Sys.ProjSt F) : Sys.ProjSt F :=
  { j with queue := j.queue.map (fun e => (e.1 + n, laterI n e.2)) }

/-- After a run whose steps did `before`, another run is appended whose steps are counted on. -/
def continued (before : List (Sys.StepOut F)) :
    Outcome ((List (Sys.PopSt N F) × List (Sys.ProjSt F)) × List (Sys.StepOut F)) →
    Outcome ((List (Sys.PopSt N F) × List (Sys.ProjSt F)) × List (Sys.StepOut F))
  | .ok (st, os) => .ok ((st.1, st.2.map (laterJ before.length)), before ++ os.map (laterO before.length))
  | .throw w => .throw w
  | .ub => .ub

end Knp.Spec
