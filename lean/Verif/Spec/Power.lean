import Verif.Model.Power

/-! # What a power meter should tell: energy over time since the previous reading -/

namespace Knp.Spec.Power
open Knp.Power

/-- Average power between two moments (in nanoseconds) with these energies (in joules). -/
def average (t₁ : Nat) (e₁ : ℚ) (t₂ : Nat) (e₂ : ℚ) : ℚ := (e₂ - e₁) / (((t₂ : ℚ) - t₁) / 1000000000)

/-- The time and the energy of the last sample that could be read; the epoch of the clock and no energy when there is none. -/
def lastReading (samples : List Sample) : Nat × ℚ :=
  match (samples.filter (fun s => s.available)).getLast? with
  | some s => (s.now, s.energy)
  | none => (0, 0)

/-- What was sampled before a call: by the constructor when the counters could be programmed, and by the earlier calls. -/
def before (status : Status) (s₀ : Sample) (earlier : List Sample) : List Sample :=
  (if status = .success then [s₀] else []) ++ earlier

/-- The meter made by the constructor, asked `earlier`, then once more: the last answer. -/
def answer (status : Status) (s₀ : Sample) (earlier : List Sample) (s : Sample) : Option Watts :=
  ((run (construct status s₀) (earlier ++ [s])).1.getLast?).join

end Knp.Spec.Power
