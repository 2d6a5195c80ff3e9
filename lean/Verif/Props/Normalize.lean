import Verif.Model.Normalize
import Mathlib.Algebra.Order.Field.Rat
import Mathlib.Tactic.Ring
import Mathlib.Tactic.Linarith
import Mathlib.Tactic.FieldSimp
import Mathlib.Tactic.NormNum

/-!
# C79: normalisation
-/

namespace Knp.Props
open Knp Knp.Norm

section Rescale
variable {K : Type} [Field K] [LinearOrder K] [IsStrictOrderedRing K]

/-- C79, the rescaler. For a proper input interval (`a ≠ b`) it maps ends to ends and is affine (a point dividing the input
interval in some ratio goes to the point dividing the output interval in that ratio). -/
theorem C79_affine (a b c d v t : K) (h : a ≠ b) :
    let r := Rescaler.make a b c d
    r.apply a = c ∧ r.apply b = d ∧ r.apply (a + t * (b - a)) = c + t * (d - c) ∧
    (c ≠ d → ∀ w, r.apply w = r.apply v → w = v) := by
  have hba : b - a ≠ 0 := sub_ne_zero.2 (Ne.symm h)
  refine ⟨?_, ?_, ?_, ?_⟩
  · simp [Rescaler.apply, Rescaler.make]
  · simp only [Rescaler.apply, Rescaler.make]
    field_simp
    ring
  · simp only [Rescaler.apply, Rescaler.make]
    field_simp
    ring
  · intro hcd w hw
    simp only [Rescaler.apply, Rescaler.make] at hw
    have hdc : d - c ≠ 0 := sub_ne_zero.2 (Ne.symm hcd)
    have hr : (d - c) / (b - a) ≠ 0 := div_ne_zero hdc hba
    have := add_left_cancel hw
    have := mul_right_cancel₀ hr this
    exact sub_left_injective this

/-- C79, order. For intervals in the same direction (`a < b`, `c ≤ d`) the rescaler preserves order (strictly if `c < d`), and
maps values inside the input interval, and only those if `c < d`, into the output interval. -/
theorem C79_order (a b c d v w : K) (h : a < b) (hcd : c ≤ d) :
    let r := Rescaler.make a b c d
    (v ≤ w → r.apply v ≤ r.apply w) ∧ (c < d → v < w → r.apply v < r.apply w) ∧
    (a ≤ v → v ≤ b → c ≤ r.apply v ∧ r.apply v ≤ d) ∧
    (c < d → c ≤ r.apply v → r.apply v ≤ d → a ≤ v ∧ v ≤ b) := by
  intro r
  have hba : 0 < b - a := sub_pos.2 h
  have hrat : 0 ≤ (d - c) / (b - a) := div_nonneg (sub_nonneg.2 hcd) hba.le
  have hmono : ∀ x y : K, x ≤ y → r.apply x ≤ r.apply y := by
    intro x y hxy
    show c + (x - a) * ((d - c) / (b - a)) ≤ c + (y - a) * ((d - c) / (b - a))
    have := mul_le_mul_of_nonneg_right (sub_le_sub_right hxy a) hrat
    linarith
  have hsmono : c < d → ∀ x y : K, x < y → r.apply x < r.apply y := by
    intro hlt x y hxy
    have hrat' : 0 < (d - c) / (b - a) := div_pos (sub_pos.2 hlt) hba
    show c + (x - a) * ((d - c) / (b - a)) < c + (y - a) * ((d - c) / (b - a))
    have := mul_lt_mul_of_pos_right (sub_lt_sub_right hxy a) hrat'
    linarith
  obtain ⟨h1, h2, -, -⟩ := C79_affine a b c d v 0 h.ne
  have h1 : r.apply a = c := h1
  have h2 : r.apply b = d := h2
  refine ⟨hmono v w, fun hlt => hsmono hlt v w, fun ha hb => ?_, fun hlt hc hd => ?_⟩
  · exact ⟨h1 ▸ hmono a v ha, h2 ▸ hmono v b hb⟩
  · constructor
    · by_contra hn
      have := hsmono hlt v a (not_le.1 hn)
      rw [h1] at this
      exact absurd hc (not_le.2 this)
    · by_contra hn
      have := hsmono hlt b v (not_le.1 hn)
      rw [h2] at this
      exact absurd hd (not_le.2 this)

end Rescale

example : (Rescaler.make (0 : Rat) 10 100 200).apply 3 = 130 ∧ (0 : Rat) < 10 ∧ (100 : Rat) ≤ 200 := by decide +kernel

/-- The laws of a member access: reading back what was written, and a second write replaces the first. -/
structure IsMember {A V : Type} (acc : Accessor A V) : Prop where
  getSet : ∀ x v, acc.get (acc.set x v) = v
  setGet : ∀ x, acc.set x (acc.get x) = x
  setSet : ∀ x v w, acc.set (acc.set x v) w = acc.set x w

section Network
variable {A B V : Type}

/-- C79, neurons of a network: same populations in the same order with the same UIDs and kinds, each with the same number of
neurons; the selected parameter of each neuron is the corrected old value, and restoring it gives back the old neuron (so
nothing else changed); projections are unchanged. -/
theorem C79_network_neurons (acc : Accessor A V) (hm : IsMember acc) (f : V → V) (n : Network (List A) (List (Syn B))) :
    let n' := networkNeurons acc f n
    n'.projections = n.projections ∧
    n'.populations.map (fun p => (p.uid, p.kind)) = n.populations.map (fun p => (p.uid, p.kind)) ∧
    ∀ (i : Nat) (p : PopEntity (List A)), n.populations[i]? = some p → ∃ p', n'.populations[i]? = some p' ∧
      p'.body.length = p.body.length ∧
      ∀ (j : Nat) (x : A), p.body[j]? = some x → ∃ y, p'.body[j]? = some y ∧ acc.get y = f (acc.get x) ∧ acc.set y (acc.get x) = x := by
  refine ⟨rfl, ?_, ?_⟩
  · simp [networkNeurons, Function.comp_def]
  · intro i p hp
    refine ⟨{ p with body := normalizeNeurons acc f p.body }, ?_, ?_, ?_⟩
    · simp [networkNeurons, hp]
    · simp [normalizeNeurons]
    · intro j x hx
      refine ⟨acc.set x (f (acc.get x)), ?_, hm.getSet _ _, ?_⟩
      · simp [normalizeNeurons, hx]
      · rw [hm.setSet, hm.setGet]

/-- C79, synapses of a network: same, and sources and targets are unchanged. -/
theorem C79_network_synapses (acc : Accessor B V) (hm : IsMember acc) (f : V → V) (n : Network (List A) (List (Syn B))) :
    let n' := networkSynapses acc f n
    n'.populations = n.populations ∧
    n'.projections.map (fun p => (p.uid, p.pre, p.post, p.kind)) = n.projections.map (fun p => (p.uid, p.pre, p.post, p.kind)) ∧
    ∀ (i : Nat) (p : ProjEntity (List (Syn B))), n.projections[i]? = some p → ∃ p', n'.projections[i]? = some p' ∧
      p'.body.map (fun s => (s.source, s.target)) = p.body.map (fun s => (s.source, s.target)) ∧
      ∀ (j : Nat) (x : Syn B), p.body[j]? = some x → ∃ y, p'.body[j]? = some y ∧ acc.get y.data = f (acc.get x.data) ∧
        acc.set y.data (acc.get x.data) = x.data := by
  refine ⟨rfl, ?_, ?_⟩
  · simp [networkSynapses, Function.comp_def]
  · intro i p hp
    refine ⟨{ p with body := normalizeSynapses acc f p.body }, ?_, ?_, ?_⟩
    · simp [networkSynapses, hp]
    · simp [normalizeSynapses, Function.comp_def]
    · intro j x hx
      refine ⟨{ x with data := acc.set x.data (f (acc.get x.data)) }, ?_, hm.getSet _ _, ?_⟩
      · simp [normalizeSynapses, hx]
      · show acc.set (acc.set _ _) _ = _
        rw [hm.setSet, hm.setGet]

end Network

/-- A neuron with a potential and a threshold; the potential is a member. -/
example : IsMember (⟨fun x => x.1, fun x v => (v, x.2)⟩ : Accessor (Nat × Nat) Nat) := ⟨fun _ _ => rfl, fun _ => rfl, fun _ _ _ => rfl⟩

example : normalizeNeurons (⟨fun x => x.1, fun x v => (v, x.2)⟩ : Accessor (Nat × Nat) Nat) (· + 1) [(1, 7), (2, 8)] = [(2, 7), (3, 8)] := by
  decide

end Knp.Props
