import Verif.Spec.ProjectionList
import Verif.Spec.Projection
import Verif.Props.Projection

/-!
# C175: a projection is a list of synapses and a lock
-/

namespace Knp.Props
open Knp Knp.Projection Knp.Spec.ProjList

variable {P : Type}

private theorem step_list (p : Projection P) (o : Op P) :
    (call (p.synapses, p.locked) o = none → p.step o = .ub) ∧
    (∀ st' n, call (p.synapses, p.locked) o = some (st', n) →
      ∃ p' out, p.step o = .ok (p', out) ∧ (p'.synapses, p'.locked) = st' ∧ number out = n) := by
  cases o with
  | find n c =>
    refine ⟨fun h => (by cases h), fun st' m h => ?_⟩
    cases h
    refine ⟨_, _, rfl, ?_, rfl⟩
    unfold reindex
    split <;> rfl
  | add gen k =>
    refine ⟨fun h => (by cases h), fun st' m h => ?_⟩
    cases h
    obtain ⟨h1, h2⟩ := C04_add_synapses p gen k
    refine ⟨(p.addSynapses gen k).1, _, rfl, by rw [h1]; rfl, ?_⟩
    show some (p.addSynapses gen k).2 = _
    rw [h2, List.length_filterMap_eq_countP, List.countP_eq_length_filter]
  | clear =>
    refine ⟨fun h => (by cases h), fun st' m h => ?_⟩
    cases h
    exact ⟨_, _, rfl, rfl, rfl⟩
  | removeSynapse i =>
    simp only [call, Projection.step, removeSynapse]
    by_cases hi : i < p.synapses.length
    · rw [if_pos hi, if_pos hi]
      refine ⟨fun h => (by cases h), fun st' m h => ?_⟩
      cases h
      exact ⟨_, _, rfl, by rw [List.eraseIdx_eq_take_drop_succ], rfl⟩
    · rw [if_neg hi, if_neg hi]
      exact ⟨fun _ => rfl, fun _ _ h => by cases h⟩
  | removeIf f =>
    refine ⟨fun h => (by cases h), fun st' m h => ?_⟩
    cases h
    refine ⟨(p.removeSynapseIf f).1, _, rfl, rfl, ?_⟩
    show some (p.removeSynapseIf f).2 = _
    rw [(C03_remove_if p f).2]
  | removePre n =>
    refine ⟨fun h => (by cases h), fun st' m h => ?_⟩
    cases h
    obtain ⟨h1, h2⟩ := C03_remove_by_source p n
    refine ⟨(p.removePresynaptic n).1, _, rfl, by rw [h1]; rfl, ?_⟩
    show some (p.removePresynaptic n).2 = _
    rw [h2]
  | removePost n =>
    refine ⟨fun h => (by cases h), fun st' m h => ?_⟩
    cases h
    obtain ⟨p', k, h0, h1, h2, h3⟩ := C02_remove_by_target p n
    refine ⟨p', .count k, ?_, by rw [h1, h3], by rw [h2]; rfl⟩
    simp only [Projection.step, h0]
  | setSynapse i s =>
    simp only [call, Projection.step, setSynapse]
    by_cases hi : i < p.synapses.length
    · rw [if_pos hi, if_pos hi]
      refine ⟨fun h => (by cases h), fun st' m h => ?_⟩
      cases h
      exact ⟨_, _, rfl, by rw [List.set_eq_take_append_cons_drop, if_pos hi], rfl⟩
    · rw [if_neg hi, if_neg hi]
      exact ⟨fun _ => rfl, fun _ _ h => by cases h⟩
  | setParams i q =>
    simp only [call, Projection.step, setParams]
    by_cases hi : i < p.synapses.length
    · rw [dif_pos hi, List.getElem?_eq_getElem hi, Option.map_some]
      refine ⟨fun h => (by cases h), fun st' m h => ?_⟩
      cases h
      exact ⟨_, _, rfl, by rw [List.set_eq_take_append_cons_drop, if_pos hi], rfl⟩
    · rw [dif_neg hi, List.getElem?_eq_none (by omega), Option.map_none]
      exact ⟨fun _ => rfl, fun _ _ h => by cases h⟩
  | lock =>
    refine ⟨fun h => (by cases h), fun st' m h => ?_⟩
    cases h
    exact ⟨_, _, rfl, rfl, rfl⟩
  | unlock =>
    refine ⟨fun h => (by cases h), fun st' m h => ?_⟩
    cases h
    exact ⟨_, _, rfl, rfl, rfl⟩

/-- C175. Every history of calls on a projection does what it does on a list of synapses and a lock: it is undefined exactly if a call uses a position
the list does not have; otherwise the synapses, their order, the lock and every number returned are those of the list, whatever the projection looked
like inside, whenever its index was built or not. -/
theorem C175_list (p : Projection P) (ops : List (Op P)) :
    (calls (p.synapses, p.locked) ops = none → p.run ops = .ub) ∧
    (∀ st' ns, calls (p.synapses, p.locked) ops = some (st', ns) →
      ∃ p' outs, p.run ops = .ok (p', outs) ∧ p'.synapses = st'.1 ∧ p'.locked = st'.2 ∧ outs.map number = ns) := by
  induction ops generalizing p with
  | nil =>
    refine ⟨fun h => (by cases h), fun st' ns h => ?_⟩
    cases h
    exact ⟨p, [], rfl, rfl, rfl, rfl⟩
  | cons o os ih =>
    obtain ⟨a, b⟩ := step_list p o
    unfold calls Projection.run
    cases hc : call (p.synapses, p.locked) o with
    | none =>
      rw [a hc]
      exact ⟨fun _ => rfl, fun _ _ h => by cases h⟩
    | some r =>
      obtain ⟨p1, out, h1, h2, h3⟩ := b r.1 r.2 hc
      obtain ⟨c, d⟩ := ih p1
      rw [h2] at c d
      rw [h1, Option.bind_some]
      dsimp only
      cases hq : calls r.1 os with
      | none =>
        rw [c hq]
        exact ⟨fun _ => rfl, fun _ _ h => by cases h⟩
      | some q =>
        obtain ⟨p2, outs, e1, e2, e3, e4⟩ := d q.1 q.2 hq
        rw [e1]
        refine ⟨fun h => (by cases h), fun st' ns h => ?_⟩
        cases h
        exact ⟨p2, out :: outs, rfl, e2, e3, by rw [List.map_cons, h3, e4]⟩

/-- C175. New projections: the synapses the generator gives, in order, and locked. -/
theorem C175_new (gen : SynapseGenerator P) (k : Nat) :
    (mkEmpty : Projection P).synapses = [] ∧ (mkEmpty : Projection P).locked = true ∧
    (mkGenerated gen k).synapses = (List.range k).filterMap gen ∧ (mkGenerated gen k).locked = true :=
  ⟨rfl, rfl, C04_construct gen k⟩

private theorem call_lock (st st' : St P) (o : Op P) (n : Option Nat) (h : call st o = some (st', n)) : st'.2 = lastLock st.2 [o] := by
  cases o <;> simp only [call, lastLock, List.foldl_cons, List.foldl_nil] at h ⊢
  case removeSynapse i => split at h <;> simp only [Option.some.injEq, Prod.mk.injEq, reduceCtorEq] at h; rw [← h.1]
  case setSynapse i s => split at h <;> simp only [Option.some.injEq, Prod.mk.injEq, reduceCtorEq] at h; rw [← h.1]
  case setParams i q =>
    cases hi : st.1[i]? with
    | none => rw [hi] at h; simp at h
    | some s => rw [hi] at h; simp only [Option.map_some, Option.some.injEq, Prod.mk.injEq] at h; rw [← h.1]
  all_goals (simp only [Option.some.injEq, Prod.mk.injEq] at h; rw [← h.1])

/-- C175. The lock is what the last call of `lock_weights` or `unlock_weights` made it; nothing else touches it. -/
theorem C175_lock (p p' : Projection P) (ops : List (Op P)) (outs : List Out) (h : p.run ops = .ok (p', outs)) :
    p'.locked = lastLock p.locked ops := by
  obtain ⟨a, b⟩ := C175_list p ops
  cases hc : calls (p.synapses, p.locked) ops with
  | none => rw [a hc] at h; cases h
  | some r =>
    obtain ⟨p1, outs1, h1, h2, h3, h4⟩ := b r.1 r.2 hc
    rw [h1] at h
    cases h
    rw [h3]
    clear a b h1 h2 h3 h4
    generalize hst : (p.synapses, p.locked) = st at hc
    have e : p.locked = st.2 := by rw [← hst]
    rw [e]
    clear hst e
    induction ops generalizing st r with
    | nil => cases hc; rfl
    | cons o os ih =>
      unfold calls at hc
      cases ho : call st o with
      | none => rw [ho] at hc; cases hc
      | some q =>
        rw [ho, Option.bind_some] at hc
        cases hr : calls q.1 os with
        | none => rw [hr] at hc; cases hc
        | some s =>
          rw [hr] at hc
          cases hc
          have := ih s q.1 hr
          show s.1.2 = _
          rw [this, call_lock st q.1 o q.2 ho]
          rfl

/-- Lookups, removal by target with a warm index, edits in place and locks. -/
example : (calls ([], true) [.add (fun i => some ⟨(), i, i % 2⟩) 4, .find 0 .byPresynaptic, .unlock, .removePost 1, .setSynapse 1 ⟨(), 7, 8⟩]).map
      (fun r => (r.1.1.map (fun s => (s.src, s.dst)), r.1.2, r.2)) =
    some ([(0, 0), (7, 8)], false, [some 4, none, none, some 2, none]) ∧
    (calls ([], true) [.add (fun i => some (⟨(), i, i % 2⟩ : Synapse Unit)) 1, .removeSynapse 1]).isNone = true := by
  decide

end Knp.Props
