import Verif.Lemmas.CudaVectorRun

/-!
# Vectors of the device library (C144, C145)

The specification is `Spec/CudaVector.lean`: a vector is a list.
-/

namespace Knp.Props
open Knp Knp.Spec Knp.CuVec

variable {α : Type}

/-! ## C144: a vector behaves like a list -/

/-- Every history of calls that is allowed on lists ends, returns what it returns on lists, and once all vectors are destroyed no device memory
is left allocated. -/
def C144_statement : Prop :=
  ∀ (α : Type) (e : Elem α) (ops : List (Op α)) (r : List (Option (List α)) × List (Ret α)), 0 < e.bytes → listRun e.default [] ops = some r →
    ∃ s, run e .init ops = .ok (s, r.2) ∧ ((∀ i, contents r.1 i = none) → ∀ b ∈ s.mem.blocks, b = none)

/-- For all element types and all histories made of the calls that work (`Works`), of any length and on any number of vectors. -/
theorem C144_vector_partial (e : Elem α) (hb : 0 < e.bytes) (ops : List (Op α)) (r : List (Option (List α)) × List (Ret α))
    (hw : WorksAll e.trivial e.default [] ops) (hl : listRun e.default [] ops = some r) :
    ∃ s, run e .init ops = .ok (s, r.2) ∧ ((∀ i, contents r.1 i = none) → ∀ b ∈ s.mem.blocks, b = none) := by
  obtain ⟨s, h1, h2⟩ := run_good e hb ops .init [] good_init hw r hl
  refine ⟨s, h1, fun hn b hmem => ?_⟩
  cases b with
  | none => rfl
  | some cs =>
    obtain ⟨a, ha, hab⟩ := List.getElem_of_mem hmem
    have hlive : live s.mem a = some cs := by
      unfold live
      rw [List.getElem?_eq_getElem ha, hab]
      rfl
    obtain ⟨i, v, hv, _⟩ := h2.good.owned a cs hlive
    obtain ⟨xs, hx⟩ := h2.good.there i v hv
    rw [hn i] at hx
    cases hx

/-- At the end of every such history, on the memory itself: a vector holds exactly its list, within its capacity, and no two vectors share
memory. -/
theorem C144_memory_partial (e : Elem α) (hb : 0 < e.bytes) (ops : List (Op α)) (r : List (Option (List α)) × List (Ret α))
    (hw : WorksAll e.trivial e.default [] ops) (hl : listRun e.default [] ops = some r) :
    ∃ s, run e .init ops = .ok (s, r.2) ∧
      (∀ (i : Nat) (xs : List α), contents r.1 i = some xs → ∃ v, s.vecs[i]? = some (some v) ∧ toStd s.mem v = .ok xs ∧ v.size = xs.length ∧
        v.size ≤ v.cap) ∧
      (∀ (i j : Nat) (v w : Vec) (a : Nat), s.vecs[i]? = some (some v) → s.vecs[j]? = some (some w) → v.data = some a → w.data = some a →
        i = j) := by
  obtain ⟨s, h1, h2⟩ := run_good e hb ops .init [] good_init hw r hl
  refine ⟨s, h1, ?_, ?_⟩
  · intro i xs hx
    obtain ⟨v, hv, hh⟩ := h2.good.here i xs hx
    refine ⟨v, ?_, ?_, hh.size, hh.le⟩
    · unfold vecOf at hv
      cases hg : s.vecs[i]? with
      | none => rw [hg] at hv; cases hv
      | some o => rw [hg] at hv; exact congrArg some hv
    · unfold toStd
      rw [read_holds hh 0 v.size (by rw [hh.size]; omega), hh.size, List.drop_zero, List.take_length]
  · intro i j v w a hv hw' ha hb'
    exact h2.good.apart i j v w a (by unfold vecOf; rw [hv]; rfl) (by unfold vecOf; rw [hw']; rfl) ha hb'

/-- Growing on the device assigns to memory in which no element has been constructed: for elements that are not trivially copyable it is undefined
after every such history, for every vector with elements. -/
theorem C144_device_growth (e : Elem α) (hb : 0 < e.bytes) (ht : e.trivial = false) (ops : List (Op α)) (r : List (Option (List α)) × List (Ret α))
    (hw : WorksAll e.trivial e.default [] ops) (hl : listRun e.default [] ops = some r) (i : Nat) (xs : List α) (hx : contents r.1 i = some xs)
    (hne : xs ≠ []) : ∃ s v, run e .init ops = .ok (s, r.2) ∧ s.vecs[i]? = some (some v) ∧
      (∀ n, v.cap < n → step e s (.reserve true i n) = .ub) ∧ (v.size = v.cap → ∀ x, step e s (.push true i x) = .ub) ∧
      step e s (.copy true i) = .ub := by
  obtain ⟨s, h1, h2⟩ := run_good e hb ops .init [] good_init hw r hl
  obtain ⟨v, hv, hf, hh⟩ := h2.vec hx
  have hpos : 0 < xs.length := by cases xs with | nil => exact absurd rfl hne | cons y l => simp
  have hsz := hh.size
  have hle := hh.le
  -- elements assigned to a new block
  have bad : ∀ (m : Mem α) (N : Nat), N ≠ 0 → (m.alloc N).1.fill e true (m.alloc N).2 0 xs = .ub := by
    intro m N hN
    obtain ⟨m1, a, p1, _, p3⟩ := alloc_pos m hN
    rw [p1]
    have hc : m1.cells (some a) = some (List.replicate N none) := by
      show live m1 a = _
      rw [p3]; simp [upd]
    unfold Mem.fill
    rw [if_pos rfl]
    unfold Mem.assign
    rw [if_neg hne]
    simp only [hc, ht, Bool.false_or]
    rw [if_neg]
    intro hall
    rw [List.drop_zero, List.take_replicate, List.all_eq_true] at hall
    have := hall none (List.mem_replicate.2 ⟨by omega, rfl⟩)
    cases this
  have rd : ∀ N, N ≠ 0 → (s.mem.alloc N).1.read v.data 0 v.size = .ok xs := by
    intro N hN
    obtain ⟨m1, a, p1, p2, p3⟩ := alloc_pos s.mem hN
    rw [p1]
    have : Holds (live m1) v xs := hh.congr (fun b hb => by
      obtain ⟨cs, c, _⟩ := hh.cells b hb
      rw [p3]; unfold upd; rw [if_neg]; intro h; rw [h, p2] at c; cases c)
    have h3 := read_holds this 0 v.size (by omega)
    rwa [List.drop_zero, hsz, List.take_length, ← hsz] at h3
  have grow_ub : ∀ n, v.cap < n → reserve e s.mem true v n = .ub := by
    intro n hn
    have hN : n * e.bytes ≠ 0 := Nat.mul_ne_zero (by omega) (by omega)
    unfold reserve
    rw [if_neg (by omega), if_pos rfl]
    simp only [rd _ hN, Outcome.bind_ok, bad s.mem _ hN, Outcome.bind_ub]
  refine ⟨s, v, h1, ?_, ?_, ?_, ?_⟩
  · unfold vecOf at hf
    cases hg : s.vecs[i]? with
    | none => rw [hg] at hf; cases hf
    | some o => rw [hg] at hf; exact congrArg some hf
  · intro n hn
    simp only [step, hv, Outcome.bind_ok, grow_ub n hn, Outcome.bind_ub]
  · intro hc x
    simp only [step, hv, Outcome.bind_ok, push, grow]
    rw [if_pos hc, grow_ub _ (by omega)]
    simp only [Outcome.bind_ub]
  · have hN : v.cap ≠ 0 := by omega
    simp only [step, hv, Outcome.bind_ok, copy, rd _ hN, bad s.mem _ hN, Outcome.bind_ub]

/-- A vector of messages that is filled on the device can take two: the third `push_back` is undefined, whatever the elements are. -/
theorem C144_third_push (e : Elem α) (hb : 0 < e.bytes) (ht : e.trivial = false) (x y z : α) (ops : List (Op α)) :
    run e .init (.make 0 :: .push true 0 x :: .push true 0 y :: .push true 0 z :: ops) = .ub := by
  obtain ⟨t, b, d⟩ := e
  simp only at hb ht
  subst ht
  obtain ⟨b, rfl⟩ : ∃ b', b = b' + 1 := ⟨b - 1, by omega⟩
  simp [run, step, make, State.init, State.add, State.vec, State.put, push, grow, reserve, Mem.alloc, Mem.read, Mem.fill, Mem.assign, Mem.write,
    Mem.cells, Mem.store, Mem.destroy, Mem.freeOld, Mem.freeIf, Vec.empty, List.replicate, Nat.mul_add, collect, List.replicate_succ]

namespace CudaVectorEx

/-- Trivially copyable elements of four bytes. -/
def num : Elem Nat := ⟨true, 4, 0⟩
/-- Elements that own something. -/
def own : Elem Nat := ⟨false, 4, 0⟩

/-- A history on four vectors: on the host and on the device. -/
def ops : List (Op Nat) :=
  [.make 2, .ofList [5, 6, 7], .push true 0 9, .push true 0 8, .push false 0 4, .copy true 0, .set false 2 1 3, .erase true 2 0 2, .assign 1 2,
   .moveNew 1, .moveAssign 1 0, .pop 1, .erase false 1 1 3, .resize true 3 6, .toStd 0, .toStd 1, .toStd 2, .toStd 3, .destruct 0, .destruct 1,
   .destruct 2, .destruct 3]

theorem ops_list : listRun 0 [] ops = some ([none, none, none, none], [.unit, .unit, .unit, .unit, .unit, .unit, .flag true, .unit, .unit, .unit,
    .unit, .elem 4, .unit, .unit, .list [], .list [0, 8], .list [9, 8, 4], .list [9, 8, 4, 0, 0, 0], .unit, .unit, .unit, .unit]) := by decide

/-- Calls that work for trivially copyable elements whatever the vectors hold. -/
def plain : Op Nat → Bool
  | .pushOwn _ _ => false
  | .extract _ => false
  | _ => true

theorem all_trivial {d : Nat} : ∀ (os : List (Op Nat)) (ls : List (Option (List Nat))), (∀ o ∈ os, plain o = true) → WorksAll true d ls os := by
  intro os
  induction os with
  | nil => intro ls _; trivial
  | cons o os ih =>
    intro ls h
    refine ⟨?_, fun r _ => ih r.1 (fun p hp => h p (List.mem_cons_of_mem _ hp))⟩
    have := h o List.mem_cons_self
    cases o <;> simp_all [Works, plain]

example : ∃ s, run num .init ops = .ok (s, [.unit, .unit, .unit, .unit, .unit, .unit, .flag true, .unit, .unit, .unit,
    .unit, .elem 4, .unit, .unit, .list [], .list [0, 8], .list [9, 8, 4], .list [9, 8, 4, 0, 0, 0], .unit, .unit, .unit, .unit]) ∧
    ∀ b ∈ s.mem.blocks, b = none := by
  obtain ⟨s, h1, h2⟩ := C144_vector_partial num (by decide) ops _ (all_trivial ops [] (by decide)) ops_list
  refine ⟨s, h1, h2 (fun i => ?_)⟩
  show contents [none, none, none, none] i = none
  unfold contents
  rcases i with _ | _ | _ | _ | i <;> simp

/-- Elements that own something, on the host. -/
example : ∃ s, run own .init [.make 1, .push false 0 7, .push false 0 8, .copy false 0, .toStd 1, .destruct 0, .destruct 1] =
    .ok (s, [.unit, .unit, .unit, .unit, .list [0, 7, 8], .unit, .unit]) ∧ ((∀ i, contents [none, none] i = (none : Option (List Nat))) →
      ∀ b ∈ s.mem.blocks, b = none) :=
  C144_vector_partial own (by decide) _ ([none, none], _) (by simp [WorksAll, Works]) (by decide)

end CudaVectorEx
open CudaVectorEx

/-- `v.push_back(v[0])` on the device: the reference points into the old memory when the vector grows. -/
theorem C144_own_element : run num .init [.ofList [1], .pushOwn 0 0, .toStd 0] = .ub ∧
    listRun 0 [] [.ofList [1], .pushOwn 0 0, .toStd 0] = some ([some [1, 1]], [.unit, .unit, .list [1, 1]]) := by decide

/-- A vector that has been emptied, extracted: the copy has capacity but no memory. -/
theorem C144_extract_empty : run num .init [.ofList [1], .clear 0, .extract 0, .push true 1 5] = .ub ∧
    listRun 0 [] [.ofList [1], .clear 0, .extract 0, .push true 1 5] = some ([some [], some [5]], [.unit, .unit, .unit, .unit]) := by decide

/-- A `std::vector` of elements that are not trivially copyable: nothing is copied. -/
theorem C144_assign_list : run own .init [.make 0, .assignList 0 [1, 2], .toStd 0] = .ub ∧
    listRun 0 [] [.make 0, .assignList 0 [1, 2], .toStd 0] = some ([some [1, 2]], [.unit, .unit, .list [1, 2]]) := by decide

/-- The first elements of a vector of such elements are erased on the host: elements behind the new end are destroyed twice. -/
theorem C144_host_erase : run own .init [.ofList [1, 2, 3], .erase false 0 0 1] = .ub ∧
    listRun 0 [] [.ofList [1, 2, 3], .erase false 0 0 1] = some ([some [2, 3]], [.unit, .unit]) := by decide

/-- The claim fails in the code: also for plain numbers. -/
theorem C144_refuted : ¬ C144_statement := by
  intro h
  obtain ⟨s, hs, _⟩ := h Nat num [.ofList [1], .pushOwn 0 0] ([some [1, 1]], [.unit, .unit]) (by decide) (by decide)
  rw [show run num .init [.ofList [1], .pushOwn 0 0] = .ub by decide] at hs
  cases hs

/-- The hypotheses of `C144_device_growth` on a vector that is full. -/
example : ∃ s v, run own .init [.ofList [1, 2]] = .ok (s, [.unit]) ∧ s.vecs[0]? = some (some v) ∧
    (∀ n, v.cap < n → step own s (.reserve true 0 n) = .ub) ∧ (v.size = v.cap → ∀ x, step own s (.push true 0 x) = .ub) ∧
    step own s (.copy true 0) = .ub :=
  C144_device_growth own (by decide) rfl [.ofList [1, 2]] ([some [1, 2]], [.unit]) (by simp [WorksAll, Works]) (by decide) 0 [1, 2] (by decide)
    (by decide)

example : run own .init [.make 0, .push true 0 1, .push true 0 2, .push true 0 3, .toStd 0] = .ub :=
  C144_third_push own (by decide) rfl 1 2 3 _

/-! ## C145: equality of vectors -/

/-- Two vectors of a program are equal exactly if their lists are. -/
def C145_statement : Prop :=
  ∀ (α : Type) (_ : BEq α) (_ : LawfulBEq α) (e : Elem α) (ops : List (Op α)) (r : List (Option (List α)) × List (Ret α)) (dev : Bool)
    (i j : Nat) (xs ys : List α), 0 < e.bytes → WorksAll e.trivial e.default [] ops → listRun e.default [] ops = some r →
    contents r.1 i = some xs → contents r.1 j = some ys →
    ∃ s v w, run e .init ops = .ok (s, r.2) ∧ s.vecs[i]? = some (some v) ∧ s.vecs[j]? = some (some w) ∧ equal s.mem dev v w = .ok (xs == ys)

/-- On the device, and on the host for vectors of at most one element; on the host only the sizes and the first elements are compared. -/
theorem C145_equal_partial [BEq α] [LawfulBEq α] (e : Elem α) (hb : 0 < e.bytes) (ops : List (Op α)) (r : List (Option (List α)) × List (Ret α))
    (hw : WorksAll e.trivial e.default [] ops) (hl : listRun e.default [] ops = some r) (i j : Nat) (xs ys : List α)
    (hx : contents r.1 i = some xs) (hy : contents r.1 j = some ys) :
    ∃ s v w, run e .init ops = .ok (s, r.2) ∧ s.vecs[i]? = some (some v) ∧ s.vecs[j]? = some (some w) ∧ equal s.mem true v w = .ok (xs == ys) ∧
      equal s.mem false v w = .ok (decide (xs.length = ys.length) && (xs.head? == ys.head?)) ∧
      (xs.length ≤ 1 → equal s.mem false v w = .ok (xs == ys)) := by
  obtain ⟨s, h1, h2⟩ := run_good e hb ops .init [] good_init hw r hl
  obtain ⟨v, hv, hh⟩ := h2.good.here i xs hx
  obtain ⟨w, hw', hh'⟩ := h2.good.here j ys hy
  have get : ∀ k u, vecOf s.vecs k = some u → s.vecs[k]? = some (some u) := by
    intro k u hk
    unfold vecOf at hk
    cases hg : s.vecs[k]? with
    | none => rw [hg] at hk; cases hk
    | some o => rw [hg] at hk; exact congrArg some hk
  have hs := hh.size
  have hs' := hh'.size
  have dev : equal s.mem true v w = .ok (xs == ys) := by
    unfold equal
    by_cases hne : v.size = w.size
    · rw [if_neg (fun h => h hne)]
      simp only [if_true]
      rw [read_holds hh 0 v.size (by omega), Outcome.bind_ok, read_holds hh' 0 v.size (by omega), Outcome.bind_ok, List.drop_zero, List.drop_zero,
        List.take_of_length_le (by omega), List.take_of_length_le (by omega)]
      rfl
    · rw [if_pos hne]
      have : ¬ xs = ys := fun h => hne (by rw [hs, hs', h])
      rw [beq_eq_false_iff_ne.2 this]
  have host : equal s.mem false v w = .ok (decide (xs.length = ys.length) && (xs.head? == ys.head?)) := by
    unfold equal
    by_cases hne : v.size = w.size
    · rw [if_neg (fun h => h hne), decide_eq_true (by omega), Bool.true_and]
      simp only [Bool.false_eq_true, if_false]
      rw [read_holds hh 0 (min 1 v.size) (by omega), Outcome.bind_ok, read_holds hh' 0 (min 1 v.size) (by omega), Outcome.bind_ok, List.drop_zero,
        List.drop_zero]
      cases xs with
      | nil =>
        cases ys with
        | nil => rw [hs]; rfl
        | cons y l => simp only [List.length_nil, List.length_cons] at hs hs'; omega
      | cons x k =>
        cases ys with
        | nil => simp only [List.length_nil, List.length_cons] at hs hs'; omega
        | cons y l =>
          rw [show min 1 v.size = 1 by simp only [List.length_cons] at hs; omega]
          simp [Outcome.pure_eq]
    · rw [if_pos hne, decide_eq_false (by omega), Bool.false_and]
  refine ⟨s, v, w, h1, get i v hv, get j w hw', dev, host, fun hle => ?_⟩
  rw [host]
  congr 1
  by_cases hxy : xs = ys
  · subst hxy; simp
  · rw [beq_eq_false_iff_ne.2 hxy, Bool.and_eq_false_iff]
    by_cases hlen : xs.length = ys.length
    · right
      rw [beq_eq_false_iff_ne]
      intro hhd
      apply hxy
      match xs, ys, hle, hlen, hhd with
      | [], [], _, _, _ => rfl
      | [x], [y], _, _, h => simp only [List.head?_cons, Option.some.injEq] at h; rw [h]
    · left; exact decide_eq_false hlen

/-- The claim fails in the code: `[1, 2]` and `[1, 3]` are equal on the host. -/
theorem C145_refuted : ¬ C145_statement := by
  intro h
  obtain ⟨s, v, w, h1, h2, h3, h4⟩ := h Nat inferInstance inferInstance num [.ofList [1, 2], .ofList [1, 3]] ([some [1, 2], some [1, 3]], [.unit, .unit]) false
    0 1 [1, 2] [1, 3] (by decide) (by simp [WorksAll, Works]) (by decide) (by decide) (by decide)
  obtain ⟨s', v', w', h1', h2', h3', _, h5', _⟩ := C145_equal_partial num (by decide) [.ofList [1, 2], .ofList [1, 3]]
    ([some [1, 2], some [1, 3]], [.unit, .unit]) (by simp [WorksAll, Works]) (by decide) 0 1 [1, 2] [1, 3] (by decide) (by decide)
  rw [h1] at h1'
  cases h1'
  rw [h2] at h2'
  rw [h3] at h3'
  cases h2'
  cases h3'
  rw [h4] at h5'
  exact absurd h5' (by decide)

/-- The hypotheses of `C145_equal_partial` on two vectors that differ in the second element. -/
example : ∃ s v w, run num .init [.ofList [1, 2], .ofList [1, 3]] = .ok (s, [.unit, .unit]) ∧ s.vecs[0]? = some (some v) ∧
    s.vecs[1]? = some (some w) ∧ equal s.mem true v w = .ok false ∧ equal s.mem false v w = .ok true := by
  obtain ⟨s, v, w, h1, h2, h3, h4, h5, _⟩ := C145_equal_partial num (by decide) [.ofList [1, 2], .ofList [1, 3]]
    ([some [1, 2], some [1, 3]], [.unit, .unit]) (by simp [WorksAll, Works]) (by decide) 0 1 [1, 2] [1, 3] (by decide) (by decide)
  exact ⟨s, v, w, h1, h2, h3, h4, h5⟩

end Knp.Props
