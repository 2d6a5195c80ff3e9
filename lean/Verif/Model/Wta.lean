import Verif.Model.Program
import Verif.Model.Handlers

/-!
# Winner-take-all handlers of a program

Models `knp/base-framework/impl/projection/wta.cpp`: `add_wta_handlers` puts a `KWtaPerGroup` handler between each given list
of senders and list of receivers.
-/

namespace Knp.Prog
open Knp Knp.Handlers

/-- The loop of `add_wta_handlers` (wta.cpp:39-48) from pair `k` on: for every pair of senders and receivers one handler with a new
UID (`fresh k`: `core::UID` creates a random one) is added after the others (model_executor.cpp:137-149); the UIDs are
returned. -/
def addWtaHandlers (fresh : Nat → UID) : Nat → Layout → List (List UID × List UID) → Layout × List UID
  | _, L, [] => (L, [])
  | k, L, d :: ds =>
    let r := addWtaHandlers fresh (k + 1) { L with handlers := L.handlers ++ [⟨fresh k, d.1, d.2⟩] } ds
    (r.1, fresh k :: r.2)

/-- The handler functions of a program with `count` such handlers from position `base` on: `KWtaPerGroup{borders, winners, seed}`
(wta.cpp:42-45), called by `SpikeMessageHandler::update` (model_executor.cpp:62-72).  Handler `j` has its own random engine, a part of
the program's state: `draw j u g i` is the `i`-th value it gives for group `g`, `advance j u` the state after the call.  The
constructor sorts the borders (message_handlers.h:154).  Simplification: as all functions of a program it does not throw; see the
condition on `maxSize` in the theorems. -/
def wtaCode {σ F : Type} (c : Code σ F) (base count : Nat) (maxSize : Nat) (borders : List Nat) (winners : Nat)
    (draw : Nat → σ → Nat → Nat → Nat) (advance : Nat → σ → σ) : Code σ F :=
  { c with handle := fun n u ms =>
      if base ≤ n ∧ n < base + count then
        match kWtaPerGroup (draw (n - base) u) maxSize (sortBorders borders) winners ms with
        | .ok a => (a, advance (n - base) u)
        | _ => ([], u)
      else c.handle n u ms }

end Knp.Prog
