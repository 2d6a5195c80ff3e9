import Verif.Model.Program
import Verif.Model.Monitoring

/-!
# Loggers in a program

Models the observers `add_spikes_logger` and `add_aggregated_spikes_logger` put into a program
(`knp/base-framework/impl/monitoring/model.cpp`): the functions of `Verif/Model/Monitoring.lean` called as the executor of
`Verif/Model/Program.lean` calls its observers.  They write to a stream and an accumulator nobody else uses, so what they
do is a function of the calls they get.
-/

namespace Knp.Prog
open Knp Knp.Sys

variable {F N : Type}

/-- The calls observer `n` gets in a run: one per iteration, with the messages it observes; `get_backend()->get_step()`
(model.cpp:79, 142) is the step counter after `_step` has increased it (single: backend.cpp:137; multi: backend.cpp:319; model_executor.cpp:120-123). -/
def callsOf (n : Nat) : List (Item F) → List Mon.Call
  | [] => []
  | .iter i :: tr => ⟨i.time + 1, spikesIn (i.observed.getD n [])⟩ :: callsOf n tr
  | .halt _ _ :: tr => callsOf n tr
  | .read _ _ _ _ :: tr => callsOf n tr

/-- The observer `add_spikes_logger` and `add_aggregated_spikes_logger` add: it listens to the spikes of the named senders
(model.cpp:190-198, 215-220). -/
def logObserver (uid : UID) (names : List (UID × N)) : Observer := ⟨uid, .spike, names.map (fun x => x.1)⟩

/-- What the spikes logger has written after a run (model.cpp:168-180): every call appends. -/
def spikesLogOf (names : List (UID × N)) (calls : List Mon.Call) : Outcome (List (Mon.SpikeRecord N)) :=
  match calls with
  | [] => .ok []
  | c :: cs =>
    match Mon.spikesLog names c.msgs with
    | .ok l =>
      match spikesLogOf names cs with
      | .ok r => .ok (l ++ r)
      | .throw w => .throw w
      | .ub => .ub
    | .throw w => .throw w
    | .ub => .ub

end Knp.Prog
