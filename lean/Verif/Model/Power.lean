import Verif.Model.Basic
import Mathlib.Data.Rat.Defs
import Mathlib.Algebra.Order.Field.Rat

/-!
# The power meter of a processor

Models `knp/backends/cpu/cpu-devices/impl/x86_cpu_power.{h,cpp}`.  The clock is a number of nanoseconds since its epoch, the energy counter a
rational number of joules; the rounding of `double` and the narrowing of the result to `float` are not modelled, and neither is the wrap of
the hardware counter (PCM widens it).
-/

namespace Knp.Power
open Knp

/-- What the processor tells at one call: whether energy metrics are available, the energy counter, the clock. -/
structure Sample where
  available : Bool
  energy : ℚ
  now : Nat

/-- A `float` result: a division by zero gives an infinity or not-a-number. -/
inductive Watts where
  | fin (w : ℚ)
  | posInf
  | negInf
  | nan
deriving DecidableEq, Repr

/-- The fields of `CpuPower` (x86_cpu_power.h:55-60): `time_start_`, `sktstate1_`, `sktstate2_`. -/
structure Meter where
  start : Nat
  state1 : ℚ
  state2 : ℚ
deriving DecidableEq, Repr

/-- A meter before its first reading: the fields default-constructed (x86_cpu_power.h:55-60). -/
def Meter.fresh : Meter := ⟨0, 0, 0⟩

/-- `duration_cast<seconds>(…).count()` (x86_cpu_power.cpp:89). -/
def wholeSeconds (ns : Nat) : Nat := ns / 1000000000

/-- `double / long` (x86_cpu_power.cpp:88-89). -/
def divide (joules : ℚ) (seconds : Nat) : Watts :=
  if seconds = 0 then
    if 0 < joules then .posInf else if joules < 0 then .negInf else .nan
  else .fin (joules / seconds)

/-- `get_power` (x86_cpu_power.cpp:74-95). -/
def getPower (m : Meter) (s : Sample) : Outcome (Watts × Meter) :=
  if s.available then
    -- `std::swap(sktstate1_, sktstate2_)`
    let m : Meter := { m with state1 := m.state2, state2 := m.state1 }
    let m := { m with state1 := s.energy }
    let joules := m.state1 - m.state2
    let watts := divide joules (wholeSeconds (s.now - m.start))
    .ok (watts, { m with start := s.now })
  else .throw "Energy metrics are unavailable."

/-- What `program` of PCM answers (x86_cpu_power.cpp:33-53). -/
inductive Status where
  | success
  | msrAccessDenied
  | pmuBusy
  | other
deriving DecidableEq, Repr

/-- `check_pcm_status` (x86_cpu_power.cpp:33-53). -/
def checkStatus : Status → Outcome Unit
  | .success => .ok ()
  | _ => .throw "Access to Intel(r) Performance Counter Monitor was denied."

/-- `CpuPower(cpu_sock_no)` (x86_cpu_power.cpp:56-71): the errors are logged and dropped. -/
def construct (status : Status) (s : Sample) : Meter :=
  match checkStatus status with
  | .ok _ =>
    match getPower Meter.fresh s with
    | .ok (_, m) => m
    | _ => Meter.fresh
  | _ => Meter.fresh

/-- A history of `get_power` calls, with the caller catching the errors: what each returned (`none`: it threw), and the meter in the end. -/
def run (m : Meter) : List Sample → List (Option Watts) × Meter
  | [] => ([], m)
  | s :: rest =>
    match getPower m s with
    | .ok (w, m') => let r := run m' rest; (some w :: r.1, r.2)
    | _ => let r := run m rest; (none :: r.1, r.2)

end Knp.Power
