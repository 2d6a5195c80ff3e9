import Verif.Model.Io
import Mathlib.Data.List.Nodup
import Mathlib.Order.Defs.LinearOrder

/-! # C31–C35: input and output -/

namespace Knp.Props
open Knp Knp.Io

/-! ## C31 -/

private theorem split_of_down {α : Type} (p : α → Bool) (l : List α)
    (h : l.Pairwise (fun x y => p y = true → p x = true)) :
    l.takeWhile p = l.filter p ∧ l.dropWhile p = l.filter (fun x => !p x) ∧
      (l.dropWhile p).any p = false := by
  induction l with
  | nil => simp
  | cons a l ih =>
    have hp := List.pairwise_cons.1 h
    by_cases ha : p a = true
    · have := ih hp.2
      simp [ha, this]
    · have hf : ∀ x ∈ l, p x = false := by
        intro x hx
        cases hx' : p x
        · rfl
        · exact absurd (hp.1 x hx hx') ha
      have h1 : l.filter p = [] := List.filter_eq_nil_iff.2 (by intro x hx; simp [hf x hx])
      have h2 : l.filter (fun x => !p x) = l := List.filter_eq_self.2 (by intro x hx; simp [hf x hx])
      have ha' : p a = false := by simpa using ha
      refine ⟨?_, ?_, ?_⟩
      · simp [ha', h1]
      · simp [ha', h2]
      · simp [ha']
        exact hf

private theorem take_takeWhile_length {α : Type} (r : α → Bool) (l : List α) :
    l.take (l.takeWhile r).length = l.takeWhile r := by
  induction l with
  | nil => rfl
  | cons a l ih => by_cases h : r a = true <;> simp [h, ih]

private theorem drop_takeWhile_length {α : Type} (r : α → Bool) (l : List α) :
    l.drop (l.takeWhile r).length = l.dropWhile r := by
  induction l with
  | nil => rfl
  | cons a l ih => by_cases h : r a = true <;> simp [h, ih]

/-- The buffer is sorted by step: the assumption stated in a comment of the source. -/
def SortedBySend (l : List SpikeMessage) : Prop :=
  l.Pairwise (fun x y => x.header.sendTime ≤ y.header.sendTime)

/-- C31, full statement: reading a window returns exactly its messages in order and removes them. -/
def C31_statement (maxSize : Nat) : Prop :=
  ∀ (c : OutputChannel) (start final : Nat), start < two64 → final < two64 →
    c.readSome maxSize start final = .ok
      (⟨c.buffer.filter (fun m => decide (¬ (start ≤ m.header.sendTime ∧ m.header.sendTime ≤ final)))⟩,
       c.buffer.filter (fun m => decide (start ≤ m.header.sendTime ∧ m.header.sendTime ≤ final)))

/-- C31 is false whatever the vector limit: an empty window (`start > final`) with a message in between is
undefined behaviour. -/
theorem C31_read_window_refuted (maxSize : Nat) : ¬ C31_statement maxSize := by
  intro h
  have := h ⟨[⟨⟨1, 5⟩, [0]⟩]⟩ 7 3 (by decide) (by decide)
  have h2 : (OutputChannel.mk [⟨⟨1, 5⟩, [0]⟩]).readSome maxSize 7 3 = .ub ∨
      (OutputChannel.mk [⟨⟨1, 5⟩, [0]⟩]).readSome maxSize 7 3 = .throw "length_error" := by
    unfold OutputChannel.readSome
    split
    · exact Or.inr rfl
    · exact Or.inl rfl
  rcases h2 with h2 | h2 <;> rw [h2] at this <;> cases this

/-- … a buffer that is not sorted by step makes the call undefined … -/
theorem C31_unsorted_ub : (OutputChannel.mk [⟨⟨1, 5⟩, [0]⟩, ⟨⟨2, 4⟩, [0]⟩]).readSome 1000 5 5 = .ub := by
  rfl

/-- … and a window far from step 0 is refused although it contains few messages: the reservation adds the
two bounds instead of subtracting them. -/
theorem C31_large_steps_throw : ∀ maxSize start, 2 * start + 1 < two64 → maxSize ≤ 2 * start →
    ((OutputChannel.mk [⟨⟨1, start⟩, [0]⟩]).readSome maxSize start start).isThrow = true := by
  intro maxSize start h1 h2
  have h3 : addU64 (addU64 start start) 1 = 2 * start + 1 := by
    rw [addU64_of_lt (a := start) (by omega), addU64_of_lt (by omega)]; omega
  unfold OutputChannel.readSome
  rw [h3, if_pos (by omega)]
  rfl

/-- C31, what holds: for a buffer sorted by step, a window `start ≤ final` and a reservation the vector can
satisfy. -/
theorem C31_read_window_partial (maxSize : Nat) (c : OutputChannel) (start final : Nat)
    (hs : SortedBySend c.buffer) (hw : start ≤ final) (hm : start + final + 1 ≤ maxSize)
    (hm64 : start + final + 1 < two64) :
    c.readSome maxSize start final = .ok
      (⟨c.buffer.filter (fun m => decide (¬ (start ≤ m.header.sendTime ∧ m.header.sendTime ≤ final)))⟩,
       c.buffer.filter (fun m => decide (start ≤ m.header.sendTime ∧ m.header.sendTime ≤ final))) := by
  have hadd : addU64 (addU64 start final) 1 = start + final + 1 := by
    rw [addU64_of_lt (a := start) (by omega), addU64_of_lt hm64]
  let p : SpikeMessage → Bool := fun m => decide (m.header.sendTime < start)
  let q : SpikeMessage → Bool := fun m => !decide (final < m.header.sendTime)
  obtain ⟨p1, p2, p3⟩ := split_of_down p c.buffer (hs.imp (by
    intro x y hxy hy
    simp only [p, decide_eq_true_eq] at hy ⊢; omega))
  obtain ⟨q1, q2, q3⟩ := split_of_down q c.buffer (hs.imp (by
    intro x y hxy hy
    simp only [q, Bool.not_eq_true', decide_eq_false_iff_not] at hy ⊢; omega))
  have hpq : ∀ m, p m = true → q m = true := by
    intro m hm
    simp only [p, q, decide_eq_true_eq, Bool.not_eq_true', decide_eq_false_iff_not] at hm ⊢; omega
  have hle : (c.buffer.takeWhile p).length ≤ (c.buffer.takeWhile q).length := by
    rw [p1, q1, ← List.countP_eq_length_filter, ← List.countP_eq_length_filter]
    exact List.countP_mono_left (fun x _ => hpq x)
  have hP : partitionPoint p c.buffer = .ok (c.buffer.takeWhile p).length := by
    unfold partitionPoint; rw [p3]; rfl
  have hQ : partitionPoint q c.buffer = .ok (c.buffer.takeWhile q).length := by
    unfold partitionPoint; rw [q3]; rfl
  have htake := fun r => take_takeWhile_length r c.buffer
  have hdrop := fun r => drop_takeWhile_length r c.buffer
  unfold OutputChannel.readSome
  rw [hadd, if_neg (by omega)]
  show (match partitionPoint p c.buffer, partitionPoint q c.buffer with
    | .ok b, .ok e =>
      if b ≤ e then Outcome.ok ((⟨c.buffer.take b ++ c.buffer.drop e⟩ : OutputChannel),
        (c.buffer.take e).drop b) else Outcome.ub
    | _, _ => Outcome.ub) = _
  rw [hP, hQ]
  simp only
  rw [if_pos hle, htake p, hdrop q, htake q]
  -- the three parts
  have hsplit : c.buffer = c.buffer.filter p ++ c.buffer.filter (fun x => !p x) := by
    rw [← p1, ← p2]; exact List.takeWhile_append_dropWhile.symm
  have hqf : c.buffer.filter q =
      c.buffer.filter p ++ c.buffer.filter (fun x => q x && !p x) := by
    conv_lhs => rw [hsplit, List.filter_append]
    rw [List.filter_filter, List.filter_filter]
    congr 1
    apply List.filter_congr
    intro x _
    cases hx : p x
    · simp
    · simp [hpq x hx]
  have hmid : (c.buffer.takeWhile q).drop (c.buffer.takeWhile p).length =
      c.buffer.filter (fun m => decide (start ≤ m.header.sendTime ∧ m.header.sendTime ≤ final)) := by
    rw [p1, q1, hqf, List.drop_left]
    apply List.filter_congr
    intro x _
    simp only [p, q, ← decide_not, Nat.not_lt, ← Bool.decide_and, decide_eq_decide]
    omega
  have hrest : c.buffer.takeWhile p ++ c.buffer.dropWhile q =
      c.buffer.filter (fun m => decide (¬ (start ≤ m.header.sendTime ∧ m.header.sendTime ≤ final))) := by
    rw [p1, q2]
    conv_rhs => rw [hsplit, List.filter_append, List.filter_filter, List.filter_filter]
    congr 1
    · apply List.filter_congr
      intro x _
      simp only [p, ← Bool.decide_and, decide_eq_decide]
      omega
    · apply List.filter_congr
      intro x _
      simp only [p, q, ← decide_not, Nat.not_lt, Nat.not_le, ← Bool.decide_and, decide_eq_decide]
      omega
  rw [hmid, hrest]

/-- Three messages, the middle one read. -/
example : (OutputChannel.mk [⟨⟨1, 2⟩, [0]⟩, ⟨⟨2, 4⟩, [7]⟩, ⟨⟨1, 9⟩, [0]⟩]).readSome 1000 3 5 =
    .ok (⟨[⟨⟨1, 2⟩, [0]⟩, ⟨⟨1, 9⟩, [0]⟩]⟩, [⟨⟨2, 4⟩, [7]⟩]) := by rfl
example : SortedBySend [⟨⟨1, 2⟩, [0]⟩, ⟨⟨2, 4⟩, [7]⟩, ⟨⟨1, 9⟩, [0]⟩] := by simp [SortedBySend]

/-- Calls on an output channel: messages arrive, a window is read. -/
inductive OutOp where
  | update (incoming : List SpikeMessage)
  | read (start final : Nat)

/-- Runs the calls; returns the channel and the results of all reads, in order. -/
def outRun (maxSize : Nat) : List OutOp → OutputChannel → List SpikeMessage →
    Outcome (OutputChannel × List SpikeMessage)
  | [], c, acc => .ok (c, acc)
  | .update m :: ops, c, acc => outRun maxSize ops (c.update m).1 acc
  | .read a b :: ops, c, acc =>
    match c.readSome maxSize a b with
    | .ok (c', r) => outRun maxSize ops c' (acc ++ r)
    | .throw w => .throw w
    | .ub => .ub

/-- All messages that arrived. -/
def arrived : List OutOp → List SpikeMessage
  | [] => []
  | .update m :: ops => m ++ arrived ops
  | .read _ _ :: ops => arrived ops

/-- C31 over histories: if messages arrive in step order and every window is proper, every call succeeds
and every message that arrived was returned by exactly one read or is still in the buffer. -/
theorem C31_history_conservation (maxSize : Nat) (ops : List OutOp)
    (hs : SortedBySend (arrived ops))
    (hw : ∀ a b, OutOp.read a b ∈ ops → a ≤ b ∧ a + b + 1 ≤ maxSize ∧ a + b + 1 < two64) :
    ∃ c' rs, outRun maxSize ops ⟨[]⟩ [] = .ok (c', rs) ∧ (rs ++ c'.buffer).Perm (arrived ops) := by
  have key : ∀ (ops : List OutOp) (c : OutputChannel) (acc : List SpikeMessage),
      SortedBySend (c.buffer ++ arrived ops) →
      (∀ a b, OutOp.read a b ∈ ops → a ≤ b ∧ a + b + 1 ≤ maxSize ∧ a + b + 1 < two64) →
      ∃ c' rs, outRun maxSize ops c acc = .ok (c', rs) ∧
        (rs ++ c'.buffer).Perm (acc ++ c.buffer ++ arrived ops) := by
    intro ops
    induction ops with
    | nil =>
      intro c acc _ _
      exact ⟨c, acc, rfl, by simp [arrived]⟩
    | cons op ops ih =>
      intro c acc hs hw
      have hw' : ∀ a b, OutOp.read a b ∈ ops → a ≤ b ∧ a + b + 1 ≤ maxSize ∧ a + b + 1 < two64 :=
        fun a b h => hw a b (List.mem_cons_of_mem _ h)
      cases op with
      | update m =>
        obtain ⟨c', rs, h1, h2⟩ := ih (c.update m).1 acc
          (by simpa [OutputChannel.update, arrived, List.append_assoc] using hs) hw'
        refine ⟨c', rs, h1, h2.trans ?_⟩
        simp [OutputChannel.update, arrived, List.append_assoc]
      | read a b =>
        obtain ⟨h1, h2, h3⟩ := hw a b (by simp)
        have hsb : SortedBySend c.buffer := (List.pairwise_append.1 hs).1
        have hr := C31_read_window_partial maxSize c a b hsb h1 h2 h3
        unfold outRun
        rw [hr]
        simp only
        obtain ⟨c', rs, h4, h5⟩ := ih ⟨c.buffer.filter (fun m =>
            decide (¬ (a ≤ m.header.sendTime ∧ m.header.sendTime ≤ b)))⟩
          (acc ++ c.buffer.filter (fun m => decide (a ≤ m.header.sendTime ∧ m.header.sendTime ≤ b)))
          (List.Pairwise.sublist (List.Sublist.append_right List.filter_sublist _) hs) hw'
        refine ⟨c', rs, h4, h5.trans ?_⟩
        have : (c.buffer.filter (fun m => decide (a ≤ m.header.sendTime ∧ m.header.sendTime ≤ b)) ++
            c.buffer.filter (fun m => decide (¬ (a ≤ m.header.sendTime ∧ m.header.sendTime ≤ b)))).Perm
            c.buffer := by
          have e : (fun m : SpikeMessage =>
              decide (¬ (a ≤ m.header.sendTime ∧ m.header.sendTime ≤ b))) =
              (fun m => !decide (a ≤ m.header.sendTime ∧ m.header.sendTime ≤ b)) := by
            funext m; rw [decide_not]
          rw [e]
          exact List.filter_append_perm _ _
        simp only [arrived, List.append_assoc]
        refine List.Perm.append_left _ ?_
        rw [← List.append_assoc]
        exact List.Perm.append_right _ this
  obtain ⟨c', rs, h1, h2⟩ := key ops ⟨[]⟩ [] (by simpa using hs) hw
  exact ⟨c', rs, h1, by simpa using h2⟩

example : outRun 1000 [.update [⟨⟨1, 0⟩, [1]⟩, ⟨⟨1, 1⟩, [2]⟩], .read 0 0, .update [⟨⟨1, 2⟩, [3]⟩], .read 1 5]
    ⟨[]⟩ [] = .ok (⟨[]⟩, [⟨⟨1, 0⟩, [1]⟩, ⟨⟨1, 1⟩, [2]⟩, ⟨⟨1, 2⟩, [3]⟩]) := by rfl

/-- C31: reading `[a, b]` and then `[b+1, c]` yields the same as reading `[a, c]`. -/
theorem C31_consecutive_reads (maxSize : Nat) (ch : OutputChannel) (a b c : Nat)
    (hs : SortedBySend ch.buffer) (hab : a ≤ b) (hbc : b < c) (hm : b + c + 2 ≤ maxSize)
    (hm64 : b + c + 2 < two64) :
    ∃ c₁ r₁ c₂ r₂, ch.readSome maxSize a b = .ok (c₁, r₁) ∧ c₁.readSome maxSize (b + 1) c = .ok (c₂, r₂) ∧
      ch.readSome maxSize a c = .ok (c₂, r₁ ++ r₂) := by
  have h1 := C31_read_window_partial maxSize ch a b hs hab (by omega) (by omega)
  have hs1 : SortedBySend (ch.buffer.filter (fun m =>
      decide (¬ (a ≤ m.header.sendTime ∧ m.header.sendTime ≤ b)))) := hs.sublist List.filter_sublist
  have h2 := C31_read_window_partial maxSize ⟨_⟩ (b + 1) c hs1 (by omega) (by omega) (by omega)
  have h3 := C31_read_window_partial maxSize ch a c hs (by omega) (by omega) (by omega)
  refine ⟨_, _, _, _, h1, h2, ?_⟩
  rw [h3]
  congr 2
  · rw [List.filter_filter]
    congr 1
    apply List.filter_congr
    intro x _
    simp only [← Bool.decide_and, decide_eq_decide]
    omega
  · rw [List.filter_filter]
    -- both sides are the window [a, c] of a sorted list
    generalize hbuf : ch.buffer = l at hs
    clear h1 h2 h3 hs1 hbuf
    induction l with
    | nil => simp
    | cons x l ih =>
      have hp := List.pairwise_cons.1 hs
      have ih' := ih hp.2
      by_cases hx1 : a ≤ x.header.sendTime ∧ x.header.sendTime ≤ b
      · have hx2 : a ≤ x.header.sendTime ∧ x.header.sendTime ≤ c := by omega
        have hx3 : ¬ (b + 1 ≤ x.header.sendTime ∧ x.header.sendTime ≤ c) := by omega
        simp only [List.filter_cons, hx1, hx2, hx3, and_self, decide_true, if_true, ih',
          Bool.and_false, List.cons_append]
        simp
      · by_cases hx2 : a ≤ x.header.sendTime ∧ x.header.sendTime ≤ c
        · have hx3 : b + 1 ≤ x.header.sendTime := by omega
          have hnil : l.filter (fun m => decide (a ≤ m.header.sendTime ∧ m.header.sendTime ≤ b)) = [] := by
            apply List.filter_eq_nil_iff.2
            intro y hy
            have := hp.1 y hy
            simp only [decide_eq_true_eq, not_and]; omega
          rw [hnil] at ih'
          rw [List.filter_cons_of_pos (by simpa using hx2), List.filter_cons_of_neg (by simpa using hx1),
            List.filter_cons_of_pos (by
              simp only [Bool.and_eq_true, decide_eq_true_eq]; exact ⟨⟨hx3, hx2.2⟩, hx1⟩),
            ih', hnil]
          rfl
        · rw [List.filter_cons_of_neg (by simpa using hx2), List.filter_cons_of_neg (by simpa using hx1),
            List.filter_cons_of_neg (by
              simp only [Bool.and_eq_true, decide_eq_true_eq]; omega), ih']

example : (OutputChannel.mk [⟨⟨1, 2⟩, [0]⟩, ⟨⟨2, 4⟩, [7]⟩, ⟨⟨1, 9⟩, [0]⟩]).readSome 1000 2 9 =
    .ok (⟨[]⟩, [⟨⟨1, 2⟩, [0]⟩] ++ [⟨⟨2, 4⟩, [7]⟩, ⟨⟨1, 9⟩, [0]⟩]) := by rfl

/-! ## C32 -/

private theorem markAll_spec (size : Nat) (is : List Nat) (r : List Bool) (hr : r.length = size) :
    (markAll size is r).length = size ∧
      ∀ j < size, (markAll size is r)[j]? = some (r.getD j false || decide (j ∈ is)) := by
  induction is generalizing r with
  | nil =>
    refine ⟨hr, fun j hj => ?_⟩
    simp [markAll, List.getD_eq_getElem?_getD, List.getElem?_eq_getElem (hr ▸ hj)]
  | cons i is ih =>
    unfold markAll
    by_cases hi : i < size
    · rw [if_pos hi]
      obtain ⟨h1, h2⟩ := ih (r.set i true) (by simpa using hr)
      refine ⟨h1, fun j hj => ?_⟩
      rw [h2 j hj]
      by_cases e : i = j
      · subst e
        simp [List.getD_eq_getElem?_getD, List.getElem?_set, hr, hi]
      · have e' : ¬ j = i := fun x => e x.symm
        simp [List.getD_eq_getElem?_getD, List.getElem?_set, e, e']
    · rw [if_neg hi]
      obtain ⟨h1, h2⟩ := ih r hr
      refine ⟨h1, fun j hj => ?_⟩
      rw [h2 j hj]
      have e' : ¬ j = i := by omega
      simp [e']

/-- C32, bitwise: the result has `size` entries and entry `j` says whether neuron `j` occurs in some
message. -/
theorem C32_bitwise (msgs : List SpikeMessage) (size : Nat) :
    (converterBitwise msgs size).length = size ∧
      ∀ j < size, (converterBitwise msgs size)[j]? = some (decide (∃ m ∈ msgs, j ∈ m.neuronIndexes)) := by
  have key : ∀ (msgs : List SpikeMessage) (r : List Bool), r.length = size →
      (msgs.foldl (fun r m => markAll size m.neuronIndexes r) r).length = size ∧
      ∀ j < size, (msgs.foldl (fun r m => markAll size m.neuronIndexes r) r)[j]? =
        some (r.getD j false || decide (∃ m ∈ msgs, j ∈ m.neuronIndexes)) := by
    intro msgs
    induction msgs with
    | nil =>
      intro r hr
      refine ⟨hr, fun j hj => ?_⟩
      simp [List.getD_eq_getElem?_getD, List.getElem?_eq_getElem (hr ▸ hj)]
    | cons m msgs ih =>
      intro r hr
      obtain ⟨h1, h2⟩ := markAll_spec size m.neuronIndexes r hr
      obtain ⟨h3, h4⟩ := ih _ h1
      refine ⟨h3, fun j hj => ?_⟩
      rw [List.foldl_cons, h4 j hj]
      rw [List.getD_eq_getElem?_getD, h2 j hj]
      simp [Bool.or_assoc]
  obtain ⟨h1, h2⟩ := key msgs (List.replicate size false) (by simp)
  refine ⟨h1, fun j hj => ?_⟩
  have := h2 j hj
  simpa [converterBitwise, List.getD_eq_getElem?_getD, List.getElem?_replicate, hj] using this

private theorem countAll_spec (size : Nat) (is : List Nat) (r : List Nat) (hr : r.length = size) :
    (countAll size is r).length = size ∧
      ∀ j < size, (countAll size is r)[j]? = some (r.getD j 0 + is.count j) := by
  induction is generalizing r with
  | nil =>
    refine ⟨hr, fun j hj => ?_⟩
    simp [countAll, List.getD_eq_getElem?_getD, List.getElem?_eq_getElem (hr ▸ hj)]
  | cons i is ih =>
    unfold countAll
    by_cases hi : i < size
    · rw [if_pos hi]
      obtain ⟨h1, h2⟩ := ih (r.modify i (· + 1)) (by simpa using hr)
      refine ⟨h1, fun j hj => ?_⟩
      rw [h2 j hj]
      have hjr : j < r.length := by omega
      by_cases e : i = j
      · subst e
        simp [List.getD_eq_getElem?_getD, List.getElem?_modify, List.getElem?_eq_getElem hjr]
        omega
      · simp [List.getD_eq_getElem?_getD, List.getElem?_modify, e, List.count_cons,
          List.getElem?_eq_getElem hjr]
    · rw [if_neg hi]
      obtain ⟨h1, h2⟩ := ih r hr
      refine ⟨h1, fun j hj => ?_⟩
      rw [h2 j hj]
      have e' : ¬ i = j := by omega
      simp [e', List.count_cons]

/-- C32, counting: entry `j` is the number of occurrences of neuron `j` in all messages. -/
theorem C32_count (msgs : List SpikeMessage) (size : Nat) :
    (converterCount msgs size).length = size ∧
      ∀ j < size, (converterCount msgs size)[j]? =
        some ((msgs.map (fun m => m.neuronIndexes.count j)).sum) := by
  have key : ∀ (msgs : List SpikeMessage) (r : List Nat), r.length = size →
      (msgs.foldl (fun r m => countAll size m.neuronIndexes r) r).length = size ∧
      ∀ j < size, (msgs.foldl (fun r m => countAll size m.neuronIndexes r) r)[j]? =
        some (r.getD j 0 + (msgs.map (fun m => m.neuronIndexes.count j)).sum) := by
    intro msgs
    induction msgs with
    | nil =>
      intro r hr
      refine ⟨hr, fun j hj => ?_⟩
      simp [List.getD_eq_getElem?_getD, List.getElem?_eq_getElem (hr ▸ hj)]
    | cons m msgs ih =>
      intro r hr
      obtain ⟨h1, h2⟩ := countAll_spec size m.neuronIndexes r hr
      obtain ⟨h3, h4⟩ := ih _ h1
      refine ⟨h3, fun j hj => ?_⟩
      rw [List.foldl_cons, h4 j hj]
      rw [List.getD_eq_getElem?_getD, h2 j hj]
      simp [Nat.add_assoc]
  obtain ⟨h1, h2⟩ := key msgs (List.replicate size 0) (by simp)
  refine ⟨h1, fun j hj => ?_⟩
  have := h2 j hj
  simpa [converterCount, List.getD_eq_getElem?_getD, List.getElem?_replicate, hj] using this

private theorem setInsert_spec (a : Nat) (l : List Nat) (h : l.Pairwise (· < ·)) :
    (setInsert a l).Pairwise (· < ·) ∧ ∀ x, x ∈ setInsert a l ↔ x = a ∨ x ∈ l := by
  induction l with
  | nil => simp [setInsert]
  | cons b l ih =>
    have hp := List.pairwise_cons.1 h
    obtain ⟨h1, h2⟩ := ih hp.2
    unfold setInsert
    by_cases hab : a < b
    · rw [if_pos hab]
      refine ⟨List.pairwise_cons.2 ⟨?_, h⟩, by simp⟩
      intro x hx
      rcases List.mem_cons.1 hx with rfl | hx
      · exact hab
      · exact Nat.lt_trans hab (hp.1 x hx)
    · rw [if_neg hab]
      by_cases e : a = b
      · rw [if_pos e]
        refine ⟨h, fun x => ?_⟩
        subst e
        simp
      · rw [if_neg e]
        refine ⟨List.pairwise_cons.2 ⟨?_, h1⟩, fun x => ?_⟩
        · intro x hx
          rcases (h2 x).1 hx with rfl | hx
          · omega
          · exact hp.1 x hx
        · rw [List.mem_cons, h2, List.mem_cons]
          constructor
          · rintro (h | h | h)
            · exact Or.inr (Or.inl h)
            · exact Or.inl h
            · exact Or.inr (Or.inr h)
          · rintro (h | h | h)
            · exact Or.inr (Or.inl h)
            · exact Or.inl h
            · exact Or.inr (Or.inr h)

/-- C32, set: the result is strictly ascending and contains exactly the neurons below the size that occur in
some message. -/
theorem C32_set (size : Nat) (msgs : List SpikeMessage) :
    (convertToSet size msgs).Pairwise (· < ·) ∧
      ∀ j, j ∈ convertToSet size msgs ↔ j < size ∧ ∃ m ∈ msgs, j ∈ m.neuronIndexes := by
  have key1 : ∀ (is r : List Nat), r.Pairwise (· < ·) →
      (is.foldl (fun r i => setInsert i r) r).Pairwise (· < ·) ∧
      ∀ x, x ∈ is.foldl (fun r i => setInsert i r) r ↔ x ∈ r ∨ x ∈ is := by
    intro is
    induction is with
    | nil => intro r h; exact ⟨h, by simp⟩
    | cons i is ih =>
      intro r h
      obtain ⟨h1, h2⟩ := setInsert_spec i r h
      obtain ⟨h3, h4⟩ := ih _ h1
      refine ⟨h3, fun x => ?_⟩
      rw [List.foldl_cons, h4, h2, List.mem_cons]
      constructor
      · rintro ((h | h) | h)
        · exact Or.inr (Or.inl h)
        · exact Or.inl h
        · exact Or.inr (Or.inr h)
      · rintro (h | h | h)
        · exact Or.inl (Or.inr h)
        · exact Or.inl (Or.inl h)
        · exact Or.inr h
  have key2 : ∀ (msgs : List SpikeMessage) (r : List Nat), r.Pairwise (· < ·) →
      (msgs.foldl (fun r m => m.neuronIndexes.foldl (fun r i => setInsert i r) r) r).Pairwise (· < ·) ∧
      ∀ x, x ∈ msgs.foldl (fun r m => m.neuronIndexes.foldl (fun r i => setInsert i r) r) r ↔
        x ∈ r ∨ ∃ m ∈ msgs, x ∈ m.neuronIndexes := by
    intro msgs
    induction msgs with
    | nil => intro r h; exact ⟨h, by simp⟩
    | cons m msgs ih =>
      intro r h
      obtain ⟨h1, h2⟩ := key1 m.neuronIndexes r h
      obtain ⟨h3, h4⟩ := ih _ h1
      refine ⟨h3, fun x => ?_⟩
      rw [List.foldl_cons, h4, h2]
      simp [or_assoc]
  obtain ⟨h1, h2⟩ := key2 msgs [] List.Pairwise.nil
  obtain ⟨t1, _, _⟩ := split_of_down (fun x : Nat => decide (x < size)) _ (h1.imp (by
    intro x y hxy hy
    simp only [decide_eq_true_eq] at hy ⊢; omega))
  unfold convertToSet
  rw [t1]
  refine ⟨h1.sublist List.filter_sublist, fun j => ?_⟩
  rw [List.mem_filter, h2]
  simp [and_comm]

example : converterBitwise [⟨⟨1, 0⟩, [2, 9]⟩, ⟨⟨1, 1⟩, [0, 2]⟩] 3 = [true, false, true] ∧
    converterCount [⟨⟨1, 0⟩, [2, 9]⟩, ⟨⟨1, 1⟩, [0, 2]⟩] 3 = [1, 0, 2] ∧
    convertToSet 3 [⟨⟨1, 0⟩, [2, 9]⟩, ⟨⟨1, 1⟩, [0, 2]⟩] = [0, 2] := by decide

/-! ## C33 -/

/-- C33: `send(t)` sends one message with the channel's UID, step `t` and the generated indexes exactly if
there are any, and its return value says so. -/
theorem C33_send (c : InputChannel) (t : Nat) :
    (c.gen t = [] → (c.send t).2 = false ∧ (c.send t).1.sent = c.sent) ∧
    (c.gen t ≠ [] → (c.send t).2 = true ∧
      (c.send t).1.sent = c.sent ++ [⟨⟨c.uid, t⟩, c.gen t⟩]) := by
  constructor
  · intro h; simp [InputChannel.send, h]
  · intro h
    have : (c.gen t).isEmpty = false := by simpa using h
    simp [InputChannel.send, this]

/-- C33 over a run: after sends for any list of steps, the messages sent are exactly the non-empty
generated lists, in order, each with its step. -/
theorem C33_send_history (c : InputChannel) (ts : List Nat) :
    (ts.foldl (fun c t => (c.send t).1) c).sent =
      c.sent ++ (ts.filter (fun t => !(c.gen t).isEmpty)).map (fun t => ⟨⟨c.uid, t⟩, c.gen t⟩) ∧
    (ts.foldl (fun c t => (c.send t).1) c).uid = c.uid := by
  induction ts generalizing c with
  | nil => simp
  | cons t ts ih =>
    rw [List.foldl_cons]
    obtain ⟨h1, h2⟩ := ih (c.send t).1
    have hg : (c.send t).1.gen = c.gen := by unfold InputChannel.send; simp only; split <;> rfl
    have hu : (c.send t).1.uid = c.uid := by unfold InputChannel.send; simp only; split <;> rfl
    rw [h1, h2, hg, hu]
    refine ⟨?_, rfl⟩
    by_cases h : c.gen t = []
    · rw [((C33_send c t).1 h).2]; simp [h]
    · rw [((C33_send c t).2 h).2]
      have : (c.gen t).isEmpty = false := by simpa using h
      simp [this]

example : (([0, 1, 2].foldl (fun c t => (InputChannel.send c t).1)
    ⟨5, fun t => if t = 1 then [] else [t, 7], []⟩) : InputChannel).sent =
    [⟨⟨5, 0⟩, [0, 7]⟩, ⟨⟨5, 2⟩, [2, 7]⟩] := by rfl

/-! ## C34 -/

/-- Value of a string of decimal digits: the usual positional value. -/
def decimal (s : List Char) : Nat := s.foldl (fun n c => n * 10 + (c.toNat - 48)) 0

/-- A decimal number as text: at least one character, all of them digits `0`…`9`. -/
def IsNumber (s : List Char) : Prop := s ≠ [] ∧ ∀ c ∈ s, 48 ≤ c.toNat ∧ c.toNat ≤ 57

/-- The fields joined by the delimiter. -/
def joinFields (delim : Char) : List (List Char) → List Char
  | [] => []
  | [f] => f
  | f :: fs => f ++ delim :: joinFields delim fs

private theorem isDigit_iff (c : Char) : isDigit c = true ↔ 48 ≤ c.toNat ∧ c.toNat ≤ 57 := by
  have h0 : '0'.toNat = 48 := rfl
  have h9 : '9'.toNat = 57 := rfl
  simp [isDigit, h0, h9]

private theorem accDigits_append (f rest : List Char) (acc : Nat)
    (hf : ∀ c ∈ f, 48 ≤ c.toNat ∧ c.toNat ≤ 57) (hrest : ∀ c, rest.head? = some c → isDigit c = false) :
    accDigits (f ++ rest) acc = f.foldl (fun n c => n * 10 + (c.toNat - 48)) acc := by
  induction f generalizing acc with
  | nil =>
    cases rest with
    | nil => rfl
    | cons c cs =>
      have := hrest c rfl
      simp [accDigits, this]
  | cons c f ih =>
    have hc := (isDigit_iff c).2 (hf c (by simp))
    have h0 : '0'.toNat = 48 := rfl
    simp only [List.cons_append, accDigits, hc, if_true, digitVal, h0, List.foldl_cons]
    exact ih _ (fun d hd => hf d (List.mem_cons_of_mem _ hd))

private theorem digit_not_space (c : Char) (h : 48 ≤ c.toNat ∧ c.toNat ≤ 57) : isSpace c = false := by
  unfold isSpace
  have : ∀ d : Char, d.toNat < 48 → (c == d) = false := by
    intro d hd
    apply beq_false_of_ne
    intro e
    subst e
    omega
  rw [this ' ' (by decide), this '\t' (by decide), this '\n' (by decide), this '\r' (by decide),
    this '\x0b' (by decide), this '\x0c' (by decide)]
  rfl

private theorem stoul_number (f rest : List Char) (hf : IsNumber f)
    (hrest : ∀ c, rest.head? = some c → isDigit c = false) (hv : decimal f < two64) :
    stoul (f ++ rest) = .ok (decimal f) := by
  obtain ⟨hne, hd⟩ := hf
  cases f with
  | nil => exact absurd rfl hne
  | cons c f =>
    have hc := hd c (by simp)
    have hsp := digit_not_space c hc
    have hdrop : (c :: f ++ rest).dropWhile isSpace = c :: (f ++ rest) := by
      simp [hsp]
    have hplus : c ≠ '+' := by intro e; subst e; revert hc; decide
    have hminus : c ≠ '-' := by intro e; subst e; revert hc; decide
    have hacc := accDigits_append (c :: f) rest 0 hd hrest
    unfold stoul
    rw [hdrop]
    have hm : splitSign (c :: (f ++ rest)) = (false, c :: (f ++ rest)) := by
      simp [splitSign, hplus, hminus]
    simp only [hm, (isDigit_iff c).2 hc, if_true]
    have : accDigits (c :: (f ++ rest)) 0 = decimal (c :: f) := hacc
    rw [this, if_pos hv]
    simp

private def joinTail (delim : Char) : List (List Char) → List Char
  | [] => []
  | f :: fs => delim :: joinFields delim (f :: fs)

private theorem joinFields_cons (delim : Char) (f : List Char) (fs : List (List Char)) :
    joinFields delim (f :: fs) = f ++ joinTail delim fs := by
  cases fs <;> simp [joinFields, joinTail]

/-- The loop, started at a field boundary with `pre` already consumed. -/
private theorem indexLoop_fields (delim : Char) (hdel : isDigit delim = false) (fs : List (List Char)) :
    ∀ (pre : List Char) (second fuel : Nat) (acc : List Nat),
      (∀ f ∈ fs, IsNumber f) → (∀ f ∈ fs, decimal f < two64) →
      (pre = [] ∧ second = 0 ∨ pre ≠ [] ∧ second + 1 = pre.length) →
      fs.length < fuel →
      indexLoop delim (pre ++ joinFields delim fs) fuel pre.length second acc =
        .ok (acc ++ fs.map (fun f => decimal f % 4294967296)) := by
  induction fs with
  | nil =>
    intro pre second fuel acc _ _ _ hfuel
    obtain ⟨n, rfl⟩ : ∃ n, fuel = n + 1 := ⟨fuel - 1, by simp at hfuel; omega⟩
    unfold indexLoop
    simp [joinFields]
  | cons f fs ih =>
    intro pre second fuel acc hnum hval hpos hfuel
    obtain ⟨n, rfl⟩ : ∃ n, fuel = n + 1 := ⟨fuel - 1, by simp at hfuel; omega⟩
    have hf := hnum f (by simp)
    have hfl : 0 < f.length := List.length_pos_of_ne_nil hf.1
    -- characters of a number are not the delimiter
    have hnd : ∀ c ∈ f, c ≠ delim := by
      intro c hc e
      have := (isDigit_iff c).2 (hf.2 c hc)
      rw [e, hdel] at this
      cases this
    have hjoin := joinFields_cons delim f fs
    have hT0 : fs = [] → joinTail delim fs = [] := by intro h; rw [h]; rfl
    have hT1 : fs ≠ [] → joinTail delim fs = delim :: joinFields delim fs := by
      intro h
      cases fs with
      | nil => exact absurd rfl h
      | cons g gs => rfl
    generalize joinTail delim fs = tail at hjoin hT0 hT1
    have htail : tail = [] ∨ ∃ t, tail = delim :: t := by
      by_cases h : fs = []
      · exact Or.inl (hT0 h)
      · exact Or.inr ⟨_, hT1 h⟩
    have htw : tail.takeWhile (fun c => c != delim) = [] := by
      rcases htail with h | ⟨t, h⟩ <;> simp [h]
    -- the delimiter search ends right behind the field
    have hfind : findFrom delim (pre ++ (f ++ tail)) (second + 1) = pre.length + f.length := by
      unfold findFrom
      have htwf : ∀ g : List Char, (∀ c ∈ g, c ≠ delim) →
          (g ++ tail).takeWhile (fun c => c != delim) = g := by
        intro g hg
        rw [List.takeWhile_append_of_pos (by intro a ha; simpa using hg a ha), htw, List.append_nil]
      rcases hpos with ⟨h1, h2⟩ | ⟨h1, h2⟩
      · subst h1 h2
        cases f with
        | nil => simp at hfl
        | cons c f =>
          simp only [List.nil_append, List.cons_append, Nat.zero_add, List.drop_succ_cons, List.drop_zero]
          rw [htwf f (fun d hd => hnd d (List.mem_cons_of_mem _ hd))]
          simp; omega
      · rw [h2, List.drop_left, htwf f hnd]
    have hlen : pre.length < (pre ++ (f ++ tail)).length := by simp; omega
    have hstoul : stoul (((pre ++ (f ++ tail)).drop pre.length).take (pre.length + f.length)) =
        .ok (decimal f) := by
      rw [List.drop_left]
      have : (f ++ tail).take (pre.length + f.length) = f ++ tail.take pre.length := by
        rw [List.take_append, List.take_of_length_le (by omega)]
        congr 2; omega
      rw [this]
      apply stoul_number f _ hf _ (hval f (by simp))
      intro c hc
      rcases htail with h | ⟨t, h⟩
      · simp [h] at hc
      · rw [h] at hc
        cases hpl : pre.length with
        | zero => simp [hpl] at hc
        | succ k =>
          rw [hpl] at hc
          simp only [List.take_succ_cons, List.head?_cons, Option.some.injEq] at hc
          rw [← hc]; exact hdel
    rw [hjoin]
    unfold indexLoop
    rw [if_pos hlen, hfind]
    simp only
    rw [hstoul]
    simp only
    cases hfs : fs with
    | nil =>
      have ht : tail = [] := hT0 hfs
      rw [ht, if_neg (by simp)]
      simp
    | cons g gs =>
      have ht : tail = delim :: joinFields delim fs := hT1 (by simp [hfs])
      rw [if_pos (by rw [ht]; simp)]
      have := ih (pre ++ (f ++ [delim])) (pre.length + f.length) n (acc ++ [decimal f % 4294967296])
        (fun x hx => hnum x (List.mem_cons_of_mem _ hx)) (fun x hx => hval x (List.mem_cons_of_mem _ hx))
        (Or.inr ⟨by simp, by simp; omega⟩) (by simp at hfuel; omega)
      have e1 : pre ++ (f ++ tail) = pre ++ (f ++ [delim]) ++ joinFields delim fs := by
        rw [ht]; simp
      have e2 : (pre ++ (f ++ [delim])).length = pre.length + f.length + 1 := by simp; omega
      rw [e2] at this
      rw [e1, this, hfs]
      simp

private theorem joinFields_length (delim : Char) (fs : List (List Char)) (h : ∀ f ∈ fs, IsNumber f) :
    fs.length ≤ (joinFields delim fs).length := by
  induction fs with
  | nil => simp [joinFields]
  | cons f fs ih =>
    rw [joinFields_cons]
    have hf : 0 < f.length := List.length_pos_of_ne_nil (h f (by simp)).1
    have := ih (fun g hg => h g (List.mem_cons_of_mem _ hg))
    cases fs with
    | nil => simp [joinTail]; omega
    | cons g gs =>
      simp only [joinTail, List.length_append, List.length_cons] at this ⊢
      omega

/-- C34: a line of decimal numbers below 2^32 (leading zeros allowed) separated by the delimiter – any
character that is neither a digit nor a newline – yields exactly these numbers in order, and the next call
continues behind the line. -/
theorem C34_index_line (delim : Char) (hd : ¬ (48 ≤ delim.toNat ∧ delim.toNat ≤ 57)) (hn : delim ≠ '\n')
    (fields : List (List Char)) (hf : ∀ f ∈ fields, IsNumber f)
    (hv : ∀ f ∈ fields, decimal f < 4294967296) (rest : List Char) :
    indexConverter delim (joinFields delim fields ++ '\n' :: rest) = .ok (fields.map decimal, rest) := by
  have hdel : isDigit delim = false := by
    cases h : isDigit delim
    · rfl
    · exact absurd ((isDigit_iff delim).1 h) hd
  have hnl : ∀ c ∈ joinFields delim fields, c ≠ '\n' := by
    have : ∀ fs : List (List Char), (∀ f ∈ fs, IsNumber f) → ∀ c ∈ joinFields delim fs, c ≠ '\n' := by
      intro fs
      induction fs with
      | nil => intro _ c hc; simp [joinFields] at hc
      | cons f fs ih =>
        intro hfs c hc
        rw [joinFields_cons, List.mem_append] at hc
        rcases hc with hc | hc
        · intro e
          have := (hfs f (by simp)).2 c hc
          subst e
          revert this; decide
        · cases fs with
          | nil => simp [joinTail] at hc
          | cons g gs =>
            rcases List.mem_cons.1 hc with rfl | hc
            · exact hn
            · exact ih (fun x hx => hfs x (List.mem_cons_of_mem _ hx)) c hc
    exact this fields hf
  have h1 : (joinFields delim fields ++ '\n' :: rest).takeWhile (· != '\n') = joinFields delim fields := by
    rw [List.takeWhile_append_of_pos (by intro a ha; simpa using hnl a ha)]; simp
  have h2 : (joinFields delim fields ++ '\n' :: rest).dropWhile (· != '\n') = '\n' :: rest := by
    rw [List.dropWhile_append_of_pos (by intro a ha; simpa using hnl a ha)]; simp
  have h3 := indexLoop_fields delim hdel fields [] 0 ((joinFields delim fields).length + 1) [] hf
    (fun f h => Nat.lt_trans (hv f h) (by decide)) (Or.inl ⟨rfl, rfl⟩)
    (by have := joinFields_length delim fields hf; omega)
  unfold indexConverter
  simp only [h1, h2, List.drop_succ_cons, List.drop_zero]
  simp only [List.nil_append, List.length_nil] at h3
  rw [h3]
  simp only
  congr 2
  apply List.map_congr_left
  intro f hfm
  exact Nat.mod_eq_of_lt (hv f hfm)

example : indexConverter ',' "10,007,3\n4".toList = .ok ([10, 7, 3], ['4']) := by decide

/-- C34: an index that does not fit into 32 bits is not reported but silently wraps. -/
theorem C34_large_index_wraps : indexConverter ',' "4294967301\n".toList = .ok ([5], []) := by decide

/-- C34: an empty field is reported by an exception. -/
theorem C34_empty_field_throws : (indexConverter ',' "1,,2\n".toList).isThrow = true ∧
    (indexConverter ',' ",1\n".toList).isThrow = true := by decide

/-! ## C35 -/

/-- C35: from a stream with at least `n` values the result is the ascending list of positions whose value
passes, and exactly `n` values are consumed. -/
theorem C35_sequence {V : Type} (interpret : V → Bool) (n : Nat) (vs rest : List V) (h : vs.length = n) :
    sequenceConverter interpret n (vs ++ rest) =
      .ok (((List.range n).filter (fun i => (vs[i]?.map interpret).getD false)), rest) := by
  have key : ∀ (vs : List V) (i : Nat) (acc : List Nat),
      sequenceLoop interpret vs.length i (vs ++ rest) acc =
        .ok (acc ++ (List.range vs.length).filterMap (fun j =>
          if (vs[j]?.map interpret).getD false = true then some (i + j) else none), rest) := by
    intro vs
    induction vs with
    | nil => intro i acc; simp [sequenceLoop]
    | cons v vs ih =>
      intro i acc
      simp only [List.length_cons, List.cons_append, sequenceLoop]
      rw [ih]
      rw [List.range_succ_eq_map, List.filterMap_cons, List.filterMap_map]
      simp only [List.getElem?_cons_zero, Option.map_some, Option.getD_some, Nat.add_zero]
      have e : ((fun j => if (((v :: vs)[j]?).map interpret).getD false = true then some (i + j) else none)
          ∘ Nat.succ) = (fun j => if (vs[j]?.map interpret).getD false = true
            then some (i + 1 + j) else none) := by
        funext j
        simp [Nat.add_assoc, Nat.add_comm 1 j]
      rw [e]
      cases interpret v <;> simp
  subst h
  have := key vs 0 []
  unfold sequenceConverter
  rw [this]
  simp only [List.nil_append, Nat.zero_add]
  congr 2
  rw [← List.filterMap_eq_filter]
  apply List.filterMap_congr
  intro x _
  simp [Option.guard]

example : sequenceConverter (interpretWithThreshold (fun a b => decide (a < b)) 5) 4 [7, 1, 5, 4, 9] =
    .ok ([0, 2], [9]) := by decide

/-- C35: a stream that ends too early makes the call undefined (an uninitialised value is tested). -/
theorem C35_short_stream_ub {V : Type} (interpret : V → Bool) (n : Nat) (vs : List V)
    (h : vs.length < n) : sequenceConverter interpret n vs = .ub := by
  have key : ∀ (vs : List V) (n i : Nat) (acc : List Nat), vs.length < n →
      sequenceLoop interpret n i vs acc = .ub := by
    intro vs
    induction vs with
    | nil =>
      intro n i acc h
      obtain ⟨k, rfl⟩ : ∃ k, n = k + 1 := ⟨n - 1, by simp at h; omega⟩
      rfl
    | cons v vs ih =>
      intro n i acc h
      obtain ⟨k, rfl⟩ : ∃ k, n = k + 1 := ⟨n - 1, by simp at h; omega⟩
      exact ih k (i + 1) _ (by simp at h; omega)
  exact key vs n 0 [] h

example : sequenceConverter (fun b => b) 3 [true, false] = .ub := by rfl

/-- C35, threshold interpreter: on totally ordered values it accepts exactly values ≥ threshold. -/
theorem C35_threshold {V : Type} [LinearOrder V] (t v : V) :
    interpretWithThreshold (fun a b => decide (a < b)) t v = true ↔ t ≤ v := by
  simp [interpretWithThreshold]

example : interpretWithThreshold (fun a b : Nat => decide (a < b)) 5 5 = true := by rfl

/-- C35: a value that does not compare (NaN) passes every threshold. -/
theorem C35_threshold_incomparable {V : Type} (lt : V → V → Bool) (t v : V) (h : lt v t = false) :
    interpretWithThreshold lt t v = true := by simp [interpretWithThreshold, h]

example : interpretWithThreshold (fun _ _ : Unit => false) () () = true := by rfl

end Knp.Props
