import Verif.Spec.Monitoring
import Mathlib.Algebra.BigOperators.Group.List.Basic
import Mathlib.Order.Nat
import Mathlib.Algebra.Order.Field.Rat

/-!
# C77, C100–C102: loggers
-/

namespace Knp.Props
open Knp Knp.Mon Knp.Spec

section Aggregated
variable {N : Type} [LinearOrder N]

private theorem mapInsert_keys (k : N) (v : Nat) (l : Acc N) (h : (l.map (fun x => x.1)).Pairwise (· < ·)) :
    ((mapInsert k v l).map (fun x => x.1)).Pairwise (· < ·) ∧ ∀ x, x ∈ mapInsert k v l → x = (k, v) ∨ x ∈ l := by
  induction l with
  | nil => simp [mapInsert]
  | cons a l ih =>
    obtain ⟨k', v'⟩ := a
    rw [List.map_cons, List.pairwise_cons] at h
    unfold mapInsert
    by_cases h1 : k < k'
    · rw [if_pos h1]
      refine ⟨?_, fun x hx => ?_⟩
      · rw [List.map_cons, List.map_cons, List.pairwise_cons]
        refine ⟨fun b hb => ?_, List.pairwise_cons.2 h⟩
        rcases List.mem_cons.1 hb with rfl | hb
        · exact h1
        · exact lt_trans h1 (h.1 b hb)
      · rcases List.mem_cons.1 hx with rfl | hx
        · exact Or.inl rfl
        · exact Or.inr hx
    · rw [if_neg h1]
      by_cases h2 : k = k'
      · rw [if_pos h2]
        exact ⟨by rw [List.map_cons]; exact List.pairwise_cons.2 h, fun x hx => Or.inr hx⟩
      · rw [if_neg h2]
        obtain ⟨i1, i2⟩ := ih h.2
        refine ⟨?_, fun x hx => ?_⟩
        · rw [List.map_cons, List.pairwise_cons]
          refine ⟨fun b hb => ?_, i1⟩
          obtain ⟨y, hy, rfl⟩ := List.mem_map.1 hb
          rcases i2 y hy with rfl | hy'
          · exact lt_of_le_of_ne (not_lt.1 h1) (Ne.symm h2)
          · exact h.1 _ (List.mem_map.2 ⟨y, hy', rfl⟩)
        · rcases List.mem_cons.1 hx with rfl | hx
          · exact Or.inr (List.mem_cons_self ..)
          · rcases i2 x hx with h3 | h3
            · exact Or.inl h3
            · exact Or.inr (List.mem_cons_of_mem _ h3)

private theorem mapInsert_mem (k : N) (v : Nat) (l : Acc N) (n : N) :
    n ∈ (mapInsert k v l).map (fun x => x.1) ↔ n = k ∨ n ∈ l.map (fun x => x.1) := by
  induction l with
  | nil => simp [mapInsert]
  | cons a l ih =>
    obtain ⟨k', v'⟩ := a
    unfold mapInsert
    by_cases h1 : k < k'
    · rw [if_pos h1]; simp
    · rw [if_neg h1]
      by_cases h2 : k = k'
      · rw [if_pos h2]; subst h2; simp
      · rw [if_neg h2, List.map_cons, List.mem_cons, ih, List.map_cons, List.mem_cons]
        tauto

private theorem initAcc_aux (names : List (UID × N)) (acc : Acc N) (h : (acc.map (fun x => x.1)).Pairwise (· < ·))
    (hz : ∀ x ∈ acc, x.2 = 0) :
    let r := names.foldl (fun acc x => mapInsert x.2 0 acc) acc
    (r.map (fun x => x.1)).Pairwise (· < ·) ∧ (∀ x ∈ r, x.2 = 0) ∧
      ∀ n, n ∈ r.map (fun x => x.1) ↔ n ∈ names.map (fun x => x.2) ∨ n ∈ acc.map (fun x => x.1) := by
  induction names generalizing acc with
  | nil => exact ⟨h, hz, fun n => by simp⟩
  | cons a names ih =>
    obtain ⟨h1, h2⟩ := mapInsert_keys a.2 0 acc h
    obtain ⟨i1, i2, i3⟩ := ih (mapInsert a.2 0 acc) h1 (fun x hx => by
      rcases h2 x hx with rfl | hx
      · rfl
      · exact hz x hx)
    refine ⟨i1, i2, fun n => ?_⟩
    have := i3 n
    rw [mapInsert_mem] at this
    rw [List.foldl_cons]
    rw [this, List.map_cons, List.mem_cons]
    tauto

/-- The columns of the log: the names in order, each once. -/
structure IsColumns (names : List (UID × N)) (cols : List N) : Prop where
  sorted : cols.Pairwise (· < ·)
  mem : ∀ n, n ∈ cols ↔ n ∈ names.map (fun x => x.2)

private theorem initAcc_spec (names : List (UID × N)) :
    ∃ cols, IsColumns names cols ∧ initAcc names = cols.map (fun n => (n, 0)) := by
  obtain ⟨h1, h2, h3⟩ := initAcc_aux names [] List.Pairwise.nil (by simp)
  refine ⟨(initAcc names).map (fun x => x.1), ⟨h1, fun n => ?_⟩, ?_⟩
  · exact (h3 n).trans (by simp)
  · rw [List.map_map]
    symm
    calc List.map _ (initAcc names) = (initAcc names).map id := by
          apply List.map_congr_left
          intro x hx
          exact Prod.ext rfl (h2 x hx).symm
      _ = initAcc names := by rw [List.map_id]

private theorem mapAdd_spec (k : N) (d : Nat) (cols : List N) (f : N → Nat) (hs : cols.Pairwise (· < ·)) (hk : k ∈ cols) :
    mapAdd k d (cols.map (fun n => (n, f n))) = cols.map (fun n => (n, f n + if n = k then d else 0)) := by
  induction cols with
  | nil => cases hk
  | cons a cols ih =>
    rw [List.pairwise_cons] at hs
    rw [List.map_cons, List.map_cons]
    unfold mapAdd
    rcases List.mem_cons.1 hk with rfl | hk'
    · rw [if_neg (lt_irrefl _), if_pos rfl, if_pos rfl]
      congr 1
      apply List.map_congr_left
      intro n hn
      rw [if_neg (ne_of_gt (hs.1 n hn))]
      rfl
    · have hlt := hs.1 k hk'
      rw [if_neg (not_lt.2 hlt.le), if_neg (ne_of_gt hlt), if_neg (ne_of_lt hlt), ih hs.2 hk']
      rfl

omit [LinearOrder N] in
private theorem lookup_mem (names : List (UID × N)) (u : UID) (n : N) (h : names.lookup u = some n) : n ∈ names.map (fun x => x.2) := by
  induction names with
  | nil => cases h
  | cons a names ih =>
    rw [List.lookup_cons] at h
    by_cases hu : u = a.1
    · subst hu
      simp at h
      simp [h]
    · rw [show (u == a.1) = false by simpa using hu] at h
      rw [List.map_cons]
      exact List.mem_cons_of_mem _ (ih h)

private theorem addMessages_spec (names : List (UID × N)) (cols : List N) (hc : IsColumns names cols) (msgs : List SpikeMessage)
    (st : Nat) (f : N → Nat) :
    addMessages names msgs (cols.map (fun n => (n, f n))) = cols.map (fun n => (n, f n + callSpikes names n ⟨st, msgs⟩)) := by
  induction msgs generalizing f with
  | nil => simp [addMessages, callSpikes]
  | cons m msgs ih =>
    unfold addMessages at ih ⊢
    rw [List.foldl_cons]
    cases hl : names.lookup m.header.senderUid with
    | none =>
      dsimp only
      rw [ih f]
      apply List.map_congr_left
      intro n _
      unfold callSpikes
      dsimp only
      rw [List.filter_cons_of_neg (by rw [hl]; simp)]
    | some k =>
      dsimp only
      rw [mapAdd_spec k _ cols f hc.sorted ((hc.mem k).2 (lookup_mem _ _ _ hl)), ih]
      apply List.map_congr_left
      intro n _
      unfold callSpikes
      dsimp only
      by_cases hn : n = k
      · subst hn
        rw [List.filter_cons_of_pos (by rw [hl]; simp), if_pos rfl, List.map_cons, List.sum_cons]
        congr 1
        omega
      · rw [List.filter_cons_of_neg (by rw [hl]; simp [Ne.symm hn]), if_neg hn]
        rfl

private theorem noRowBetween_succ (period : Nat) (calls : List Call) (j n : Nat) (hj : j < n) (c : Call) (hc : calls[n]? = some c) :
    noRowBetween period calls j (n + 1) = (noRowBetween period calls j n && decide (c.step % period ≠ 0)) := by
  unfold noRowBetween
  rw [List.range_succ, List.all_append]
  congr 1
  simp [hc, show ¬ n ≤ j by omega]

private theorem noRowBetween_self (period : Nat) (calls : List Call) (n : Nat) : noRowBetween period calls n (n + 1) = true := by
  unfold noRowBetween
  rw [List.all_eq_true]
  intro k hk
  rw [List.mem_range] at hk
  simp [show k ≤ n by omega]

omit [LinearOrder N] in
private theorem windowCalls_succ (period : Nat) (calls : List Call) (n : Nat) (c : Call) (hc : calls[n]? = some c) :
    windowCalls period calls (n + 1) = (if c.step % period = 0 then [] else windowCalls period calls n) ++ [c] := by
  unfold windowCalls
  rw [List.range_succ, List.filterMap_append]
  congr 1
  · by_cases h : c.step % period = 0
    · rw [if_pos h, List.filterMap_eq_nil_iff]
      intro j hj
      rw [List.mem_range] at hj
      rw [noRowBetween_succ period calls j n hj c hc]
      simp [h]
    · rw [if_neg h]
      apply List.filterMap_congr
      intro j hj
      rw [List.mem_range] at hj
      rw [noRowBetween_succ period calls j n hj c hc]
      simp [h]
  · simp [noRowBetween_self, hc]

private theorem run_take (names : List (UID × N)) (period : Nat) (calls : List Call) (cols : List N) (hc : IsColumns names cols)
    (hi : initAcc names = cols.map (fun n => (n, 0))) (k : Nat) (hk : k ≤ calls.length) :
    (aggregated names period (calls.take k)).acc = cols.map (fun n => (n, windowSpikes names period calls k n)) ∧
    (aggregated names period (calls.take k)).log = (List.range k).filterMap (fun i => match calls[i]? with
      | some c => if c.step % period = 0 then some ⟨c.step, cols.map (windowSpikes names period calls i)⟩ else none
      | none => none) := by
  induction k with
  | zero =>
    refine ⟨?_, rfl⟩
    show initAcc names = _
    rw [hi]
    rfl
  | succ k ih =>
    obtain ⟨i1, i2⟩ := ih (by omega)
    have hck := List.getElem?_eq_getElem (show k < calls.length by omega)
    have hstep : aggregated names period (calls.take (k + 1)) =
        observe names period (aggregated names period (calls.take k)) calls[k] := by
      unfold aggregated
      rw [List.take_add_one, hck, Option.toList_some, List.foldl_append]
      rfl
    rw [hstep]
    unfold observe
    dsimp only
    rw [List.range_succ, List.filterMap_append, List.filterMap_cons, hck]
    dsimp only
    by_cases h : calls[k].step % period = 0
    · rw [if_pos h, if_pos h]
      dsimp only
      refine ⟨?_, ?_⟩
      · rw [hi, addMessages_spec names cols hc _ calls[k].step]
        apply List.map_congr_left
        intro n _
        unfold windowSpikes
        rw [windowCalls_succ period calls k _ hck, if_pos h]
        simp
      · rw [i2, i1, List.map_map]
        rfl
    · rw [if_neg h, if_neg h]
      dsimp only
      refine ⟨?_, ?_⟩
      · rw [i1, addMessages_spec names cols hc _ calls[k].step]
        apply List.map_congr_left
        intro n _
        unfold windowSpikes
        rw [windowCalls_succ period calls k _ hck, if_neg h]
        simp
      · rw [i2]
        simp

private theorem sorted_unique {l l' : List N} (h : l.Pairwise (· < ·)) (h' : l'.Pairwise (· < ·)) (he : ∀ n, n ∈ l ↔ n ∈ l') : l = l' := by
  induction l generalizing l' with
  | nil =>
    cases l' with
    | nil => rfl
    | cons b l' => exact absurd ((he b).2 (List.mem_cons_self ..)) (by simp)
  | cons a l ih =>
    cases l' with
    | nil => exact absurd ((he a).1 (List.mem_cons_self ..)) (by simp)
    | cons b l' =>
      rw [List.pairwise_cons] at h h'
      have hab : a = b := by
        rcases List.mem_cons.1 ((he a).1 (List.mem_cons_self ..)) with r | r
        · exact r
        · rcases List.mem_cons.1 ((he b).2 (List.mem_cons_self ..)) with s | s
          · exact s.symm
          · exact absurd (h.1 b s) (not_lt.2 (h'.1 a r).le)
      subst hab
      congr 1
      apply ih h.2 h'.2
      intro n
      have := he n
      rw [List.mem_cons, List.mem_cons] at this
      constructor
      · intro hn
        rcases this.1 (Or.inr hn) with rfl | r
        · exact absurd (h.1 n hn) (lt_irrefl _)
        · exact r
      · intro hn
        rcases this.2 (Or.inr hn) with rfl | r
        · exact absurd (h'.1 n hn) (lt_irrefl _)
        · exact r

private theorem header_columns (names : List (UID × N)) (hd : (names.map (fun x => x.2)).Nodup) : IsColumns names (header names) := by
  have hp := sortBy_perm (fun a b : N => decide (a ≤ b)) (names.map (fun x => x.2))
  have hs := sortBy_sorted (fun a b : N => decide (a ≤ b)) (fun a b => by simpa using le_total a b)
    (fun a b c => by simpa using le_trans) (names.map (fun x => x.2))
  refine ⟨?_, fun n => hp.mem_iff⟩
  have hn : (header names).Nodup := hp.nodup_iff.2 hd
  have := List.Pairwise.and hs hn
  exact this.imp (fun {a b} h => lt_of_le_of_ne (by simpa using h.1) h.2)

/-- C77, the lines. For distinct names: the aggregated log has exactly one line per call at a step divisible by the period, in
order; under each name of the header it has the number of spikes received from the senders of that name since the previous line,
up to and not including this call. -/
theorem C77_rows_partial (names : List (UID × N)) (hd : (names.map (fun x => x.2)).Nodup) (period : Nat) (calls : List Call) :
    (aggregated names period calls).log = expectedRows names period calls (header names) ∧
    (header names).Pairwise (· < ·) ∧ (∀ n, n ∈ header names ↔ ∃ u, (u, n) ∈ names) := by
  obtain ⟨cols, hc, hi⟩ := initAcc_spec names
  have hh := header_columns names hd
  have : cols = header names := sorted_unique hc.sorted hh.sorted (fun n => (hc.mem n).trans (hh.mem n).symm)
  subst this
  have h := (run_take names period calls (header names) hc hi calls.length (Nat.le_refl _)).2
  rw [List.take_length] at h
  refine ⟨h, hh.sorted, fun n => ?_⟩
  rw [hh.mem, List.mem_map]
  constructor
  · rintro ⟨⟨u, m⟩, hx, rfl⟩; exact ⟨u, hx⟩
  · rintro ⟨u, hx⟩; exact ⟨(u, n), hx, rfl⟩

/-- Two senders, period 2, steps 1..4. -/
def exCalls : List Call :=
  [⟨1, [⟨⟨7, 1⟩, [0, 1]⟩, ⟨⟨8, 1⟩, [3]⟩]⟩, ⟨2, [⟨⟨8, 2⟩, [1, 2]⟩]⟩, ⟨3, [⟨⟨7, 3⟩, [5]⟩, ⟨⟨9, 3⟩, [5]⟩]⟩, ⟨4, [⟨⟨7, 4⟩, [0]⟩]⟩]

example : ([(7, 20), (8, 10)].map (fun x : UID × Nat => x.2)).Nodup ∧ header [(7, 20), (8, 10)] = [10, 20] ∧
    (aggregated [(7, 20), (8, 10)] 2 exCalls).log = [⟨2, [1, 2]⟩, ⟨4, [2, 1]⟩] := by decide

private theorem colsum (names : List (UID × N)) (period : Nat) (calls : List Call) (n : N) (k : Nat) (hk : k ≤ calls.length) :
    ((List.range k).map (fun i => match calls[i]? with
      | some c => if c.step % period = 0 then windowSpikes names period calls i n else 0
      | none => 0)).sum + windowSpikes names period calls k n = totalSpikes names (calls.take k) n := by
  induction k with
  | zero => rfl
  | succ k ih =>
    have hck := List.getElem?_eq_getElem (show k < calls.length by omega)
    have ht : totalSpikes names (calls.take (k + 1)) n = totalSpikes names (calls.take k) n + callSpikes names n calls[k] := by
      unfold totalSpikes
      rw [List.take_add_one, hck, Option.toList_some, List.map_append, List.sum_append, List.map_cons, List.map_nil, List.sum_singleton]
    rw [ht, ← ih (by omega), List.range_succ, List.map_append, List.sum_append]
    have hw : windowSpikes names period calls (k + 1) n =
        (if calls[k].step % period = 0 then 0 else windowSpikes names period calls k n) + callSpikes names n calls[k] := by
      unfold windowSpikes
      rw [windowCalls_succ period calls k _ hck]
      by_cases h : calls[k].step % period = 0
      · rw [if_pos h, if_pos h]; simp
      · rw [if_neg h, if_neg h]; simp
    rw [hw, List.map_cons, List.map_nil, List.sum_singleton, hck]
    dsimp only
    by_cases h : calls[k].step % period = 0
    · rw [if_pos h, if_pos h]; omega
    · rw [if_neg h, if_neg h]; omega

/-- C77, conservation, whatever the names: the spikes of each name are in the lines or still in the accumulator, each once.
Column `c` of the lines and entry `c` of the accumulator belong to the same name. -/
theorem C77_conserved (names : List (UID × N)) (period : Nat) (calls : List Call) (c : Nat) (n : N) (v : Nat)
    (hv : (aggregated names period calls).acc[c]? = some (n, v)) :
    ((aggregated names period calls).log.map (fun r => r.values.getD c 0)).sum + v = totalSpikes names calls n := by
  obtain ⟨cols, hc, hi⟩ := initAcc_spec names
  obtain ⟨h1, h2⟩ := run_take names period calls cols hc hi calls.length (Nat.le_refl _)
  rw [List.take_length] at h1 h2
  rw [h1, List.getElem?_map, Option.map_eq_some_iff] at hv
  obtain ⟨n', hn', he⟩ := hv
  obtain ⟨rfl, rfl⟩ := Prod.mk.inj he
  have hcs := colsum names period calls n' calls.length (Nat.le_refl _)
  rw [List.take_length] at hcs
  rw [← hcs, h2]
  congr 1
  clear hcs h1 h2 he
  induction calls.length with
  | zero => rfl
  | succ k ih =>
    rw [List.range_succ, List.filterMap_append, List.map_append, List.sum_append, List.map_append, List.sum_append, ih]
    congr 1
    rw [List.filterMap_cons]
    cases hk : calls[k]? with
    | none => simp [hk]
    | some cl =>
      dsimp only
      by_cases h : cl.step % period = 0
      · rw [if_pos h]
        simp [hk, h, hn']
      · rw [if_neg h]
        simp [hk, h]

/-- C77, conservation: every registered name has an entry. -/
theorem C77_columns (names : List (UID × N)) (period : Nat) (calls : List Call) (n : N) :
    (∃ (c v : Nat), (aggregated names period calls).acc[c]? = some (n, v)) ↔ ∃ u, (u, n) ∈ names := by
  obtain ⟨cols, hc, hi⟩ := initAcc_spec names
  obtain ⟨h1, -⟩ := run_take names period calls cols hc hi calls.length (Nat.le_refl _)
  rw [List.take_length] at h1
  rw [h1]
  have hm := hc.mem n
  rw [List.mem_map] at hm
  constructor
  · rintro ⟨c, v, h⟩
    rw [List.getElem?_map, Option.map_eq_some_iff] at h
    obtain ⟨n', hn', he⟩ := h
    obtain ⟨rfl, -⟩ := Prod.mk.inj he
    obtain ⟨x, hx, hxe⟩ := hm.1 (List.mem_of_getElem? hn')
    exact ⟨x.1, by rw [← hxe]; exact hx⟩
  · rintro ⟨u, hu⟩
    obtain ⟨c, hc', he⟩ := List.getElem_of_mem (hm.2 ⟨(u, n), hu, rfl⟩)
    refine ⟨c, windowSpikes names period calls calls.length n, ?_⟩
    rw [List.getElem?_map, List.getElem?_eq_getElem hc', he]
    rfl

example : (aggregated [(7, 20), (8, 10)] 2 exCalls).acc = [(10, 0), (20, 1)] ∧
    totalSpikes [(7, 20), (8, 10)] exCalls 20 = 4 ∧ totalSpikes [(7, 20), (8, 10)] exCalls 10 = 3 := by decide

end Aggregated

/-- C77 is false at the end of a run: the spikes received since the last line are in no line. -/
theorem C77_tail_refuted : ∃ (names : List (UID × Nat)) (calls : List Call), totalSpikes names calls 1 = 1 ∧
    (aggregated names 2 calls).log = [⟨0, [0]⟩] :=
  ⟨[(7, 1)], [⟨0, [⟨⟨7, 0⟩, [0]⟩]⟩], by decide, by decide⟩

/-- C77 is false for senders with equal names: the header has a column for each sender, the lines one for each name, so the
columns after it are shifted: here the count of name 2 stands in the second column headed 1. -/
theorem C77_equal_names_refuted : ∃ (names : List (UID × Nat)) (calls : List Call), header names = [1, 1, 2] ∧
    totalSpikes names calls 2 = 3 ∧ totalSpikes names calls 1 = 1 ∧ (aggregated names 2 calls).log = [⟨2, [1, 3]⟩] :=
  ⟨[(7, 1), (8, 1), (9, 2)], [⟨1, [⟨⟨7, 1⟩, [0]⟩, ⟨⟨9, 1⟩, [0, 1, 2]⟩]⟩, ⟨2, []⟩], by decide, by decide, by decide, by decide⟩

/-! ## C100: spikes log -/

/-- C100. If every message comes from a named sender, the spikes log has one record per message, in order, with its step, the
name of its sender and all its spikes; a message of another sender is undefined behaviour. -/
theorem C100_spikes_log {N : Type} [LinearOrder N] (names : List (UID × N)) (msgs : List SpikeMessage) :
    (∀ l, spikesLog names msgs = .ok l ↔ (l.length = msgs.length ∧
      ∀ (i : Nat) (m : SpikeMessage), msgs[i]? = some m → ∃ n, names.lookup m.header.senderUid = some n ∧
        l[i]? = some ⟨m.header.sendTime, n, m.neuronIndexes⟩)) ∧
    (spikesLog names msgs = .ub ↔ ∃ m ∈ msgs, names.lookup m.header.senderUid = none) := by
  induction msgs with
  | nil =>
    constructor
    · intro l
      cases l with
      | nil => simp [spikesLog]
      | cons a l => simp [spikesLog]
    · simp [spikesLog]
  | cons m ms ih =>
    obtain ⟨i1, i2⟩ := ih
    unfold spikesLog
    cases hl : names.lookup m.header.senderUid with
    | none =>
      dsimp only
      constructor
      · intro l
        constructor
        · intro h; cases h
        · rintro ⟨-, h⟩
          obtain ⟨n, hn, -⟩ := h 0 m rfl
          rw [hl] at hn; cases hn
      · exact ⟨fun _ => ⟨m, List.mem_cons_self .., hl⟩, fun _ => rfl⟩
    | some n =>
      dsimp only
      constructor
      · intro l
        cases hs : spikesLog names ms with
        | ok r =>
          dsimp only
          obtain ⟨a1, a2⟩ := (i1 r).1 hs
          constructor
          · intro h
            obtain rfl := (Outcome.ok.inj h).symm
            refine ⟨by simp [a1], fun i m' hm' => ?_⟩
            cases i with
            | zero =>
              simp at hm'
              subst hm'
              exact ⟨n, hl, rfl⟩
            | succ i => exact a2 i m' (by simpa using hm')
          · rintro ⟨b1, b2⟩
            congr 1
            cases l with
            | nil => simp at b1
            | cons x l =>
              obtain ⟨n', hn', hx⟩ := b2 0 m rfl
              rw [hl] at hn'
              cases hn'
              simp at hx
              subst hx
              congr 1
              have := (i1 l).2 ⟨by simpa using b1, fun i m' hm' => by
                obtain ⟨n'', h1, h2⟩ := b2 (i + 1) m' (by simpa using hm')
                exact ⟨n'', h1, by simpa using h2⟩⟩
              rw [hs] at this
              exact Outcome.ok.inj this
        | throw e =>
          dsimp only
          constructor
          · intro h; cases h
          · rintro ⟨b1, b2⟩
            cases l with
            | nil => simp at b1
            | cons x l =>
              have := (i1 l).2 ⟨by simpa using b1, fun i m' hm' => by
                obtain ⟨n'', h1, h2⟩ := b2 (i + 1) m' (by simpa using hm')
                exact ⟨n'', h1, by simpa using h2⟩⟩
              rw [hs] at this
              cases this
        | ub =>
          dsimp only
          constructor
          · intro h; cases h
          · rintro ⟨b1, b2⟩
            cases l with
            | nil => simp at b1
            | cons x l =>
              have := (i1 l).2 ⟨by simpa using b1, fun i m' hm' => by
                obtain ⟨n'', h1, h2⟩ := b2 (i + 1) m' (by simpa using hm')
                exact ⟨n'', h1, by simpa using h2⟩⟩
              rw [hs] at this
              cases this
      · have hrw : (∃ m' ∈ m :: ms, names.lookup m'.header.senderUid = none) ↔ ∃ m' ∈ ms, names.lookup m'.header.senderUid = none := by
          constructor
          · rintro ⟨m', hm', h⟩
            rcases List.mem_cons.1 hm' with rfl | hm'
            · rw [hl] at h; cases h
            · exact ⟨m', hm', h⟩
          · rintro ⟨m', hm', h⟩
            exact ⟨m', List.mem_cons_of_mem _ hm', h⟩
        rw [hrw, ← i2]
        cases spikesLog names ms with
        | ok r => simp
        | throw e => simp
        | ub => simp

example : spikesLog [(7, 20), (8, 10)] [⟨⟨8, 3⟩, [1, 4]⟩, ⟨⟨7, 4⟩, []⟩] = .ok [⟨3, 10, [1, 4]⟩, ⟨4, 20, []⟩] := by decide

/-! ## C101: status log -/

/-- C101, what holds: the status log has one line per call with messages, giving their number. -/
theorem C101_status_partial (period : Nat) (calls : List Call) :
    statusLog period calls = (calls.map (fun c => c.msgs.length)).filter (fun n => n ≠ 0) := by
  induction calls with
  | nil => rfl
  | cons c calls ih =>
    unfold statusLog at ih ⊢
    rw [List.filterMap_cons, List.map_cons, List.filter_cons]
    cases h : c.msgs with
    | nil => exact ih
    | cons a l =>
      rw [if_neg (by simp), if_pos (by simp)]
      exact congrArg _ ih

/-- C101 is false: the log does not depend on the logging period at all. -/
theorem C101_refuted : (∀ p q calls, statusLog p calls = statusLog q calls) ∧ ∃ calls, statusLog 1000 calls = [1, 2] ∧ calls.length = 3 :=
  ⟨fun _ _ _ => rfl, [⟨0, [⟨⟨7, 0⟩, []⟩]⟩, ⟨1, []⟩, ⟨2, [⟨⟨7, 2⟩, []⟩, ⟨⟨8, 2⟩, []⟩]⟩], by decide, rfl⟩

/-! ## C102: weights log -/

section Weights
variable {F : Type}

private theorem entryLe_total (a b : Entry F) : entryLe a b = true ∨ entryLe b a = true := by
  unfold entryLe
  by_cases h : a.receiver = b.receiver
  · rw [if_pos h, if_pos h.symm]; simp; omega
  · rw [if_neg h, if_neg (Ne.symm h)]; simp; omega

private theorem entryLe_trans (a b c : Entry F) (h1 : entryLe a b = true) (h2 : entryLe b c = true) : entryLe a c = true := by
  unfold entryLe at *
  by_cases hab : a.receiver = b.receiver
  · by_cases hbc : b.receiver = c.receiver
    · rw [if_pos hab] at h1; rw [if_pos hbc] at h2; rw [if_pos (hab.trans hbc)]
      simp at *; omega
    · rw [if_neg hbc] at h2; rw [if_neg (by omega)]
      simp at *; omega
  · by_cases hbc : b.receiver = c.receiver
    · rw [if_neg hab] at h1; rw [if_neg (by omega)]
      simp at *; omega
    · rw [if_neg hab] at h1; rw [if_neg hbc] at h2
      simp at h1 h2
      by_cases hac : a.receiver = c.receiver
      · omega
      · rw [if_neg hac]; simp; omega

/-- A section of the weights log: a neuron and its synapses (entries). -/
abbrev Section (F : Type) := Nat × List (Entry F)

/-- How sections are printed. -/
def printSections (gs : List (Section F)) : List (WTok F) :=
  gs.flatMap (fun g => .neuron g.1 :: g.2.map (fun e => .entry e.weight e.updateStep))

private theorem writeEntries_spec (es : List (Entry F)) (hs : es.Pairwise (fun a b => entryLe a b = true)) (cur : Nat)
    (hc : ∀ e ∈ es, cur ≤ e.receiver) :
    ∃ (gs : List (Section F)), writeEntries cur es =
        (es.filter (fun e => e.receiver == cur)).map (fun e => WTok.entry e.weight e.updateStep) ++ printSections gs ∧
      gs.Pairwise (fun a b => a.1 < b.1) ∧ (∀ g ∈ gs, cur < g.1 ∧ g.2 ≠ []) ∧
      (∀ g ∈ gs, g.2 = es.filter (fun e => e.receiver == g.1)) ∧
      (∀ e ∈ es, e.receiver ≠ cur → ∃ g ∈ gs, g.1 = e.receiver) := by
  induction es generalizing cur with
  | nil => exact ⟨[], rfl, List.Pairwise.nil, by simp, by simp, by simp⟩
  | cons e es ih =>
    rw [List.pairwise_cons] at hs
    have hge : ∀ x ∈ es, e.receiver ≤ x.receiver := by
      intro x hx
      have := hs.1 x hx
      unfold entryLe at this
      by_cases h : e.receiver = x.receiver
      · omega
      · rw [if_neg h] at this; simpa using this
    have hce := hc e (List.mem_cons_self ..)
    unfold writeEntries
    by_cases h : cur = e.receiver
    · rw [if_pos h]
      obtain ⟨gs, g1, g2, g3, g4, g5⟩ := ih hs.2 cur (fun x hx => hc x (List.mem_cons_of_mem _ hx))
      refine ⟨gs, ?_, g2, g3, ?_, ?_⟩
      · rw [g1, List.filter_cons_of_pos (by simp [h])]
        rfl
      · intro g hg
        rw [List.filter_cons_of_neg (by have := (g3 g hg).1; simp; omega)]
        exact g4 g hg
      · intro x hx hne
        rcases List.mem_cons.1 hx with rfl | hx
        · exact absurd h.symm hne
        · exact g5 x hx hne
    · rw [if_neg h]
      obtain ⟨gs, g1, g2, g3, g4, g5⟩ := ih hs.2 e.receiver hge
      refine ⟨(e.receiver, e :: es.filter (fun x => x.receiver == e.receiver)) :: gs, ?_, ?_, ?_, ?_, ?_⟩
      · rw [g1, List.filter_cons_of_neg (by simp; omega)]
        have : es.filter (fun x => x.receiver == cur) = [] := by
          rw [List.filter_eq_nil_iff]
          intro x hx
          have := hge x hx
          simp; omega
        rw [this]
        simp [printSections]
      · rw [List.pairwise_cons]
        exact ⟨fun g hg => (g3 g hg).1, g2⟩
      · intro g hg
        rcases List.mem_cons.1 hg with rfl | hg
        · exact ⟨by show cur < e.receiver; omega, by simp⟩
        · exact ⟨by have := (g3 g hg).1; omega, (g3 g hg).2⟩
      · intro g hg
        rcases List.mem_cons.1 hg with rfl | hg
        · rw [List.filter_cons_of_pos (by simp)]
        · rw [List.filter_cons_of_neg (by have := (g3 g hg).1; simp; omega)]
          exact g4 g hg
      · intro x hx hne
        rcases List.mem_cons.1 hx with rfl | hx
        · exact ⟨_, List.mem_cons_self .., rfl⟩
        · by_cases hr : x.receiver = e.receiver
          · exact ⟨_, List.mem_cons_self .., hr.symm⟩
          · obtain ⟨g, hg, he⟩ := g5 x hx hr
            exact ⟨g, List.mem_cons_of_mem _ hg, he⟩

private theorem writeEntries_start (es : List (Entry F)) (hs : es.Pairwise (fun a b => entryLe a b = true)) (start : Nat)
    (hne : ∀ e ∈ es, e.receiver ≠ start) :
    ∃ (gs : List (Section F)), writeEntries start es = printSections gs ∧
      gs.Pairwise (fun a b => a.1 < b.1) ∧ (∀ g ∈ gs, g.2 ≠ []) ∧
      (∀ g ∈ gs, g.2 = es.filter (fun e => e.receiver == g.1)) ∧ (∀ e ∈ es, ∃ g ∈ gs, g.1 = e.receiver) := by
  cases es with
  | nil => exact ⟨[], rfl, List.Pairwise.nil, by simp, by simp, by simp⟩
  | cons e es =>
    rw [List.pairwise_cons] at hs
    have hge : ∀ x ∈ es, e.receiver ≤ x.receiver := by
      intro x hx
      have := hs.1 x hx
      unfold entryLe at this
      by_cases h : e.receiver = x.receiver
      · omega
      · rw [if_neg h] at this; simpa using this
    unfold writeEntries
    rw [if_neg (Ne.symm (hne e (List.mem_cons_self ..)))]
    obtain ⟨gs, g1, g2, g3, g4, g5⟩ := writeEntries_spec es hs.2 e.receiver hge
    refine ⟨(e.receiver, e :: es.filter (fun x => x.receiver == e.receiver)) :: gs, ?_, ?_, ?_, ?_, ?_⟩
    · rw [g1]; simp [printSections]
    · rw [List.pairwise_cons]; exact ⟨fun g hg => (g3 g hg).1, g2⟩
    · intro g hg
      rcases List.mem_cons.1 hg with rfl | hg
      · simp
      · exact (g3 g hg).2
    · intro g hg
      rcases List.mem_cons.1 hg with rfl | hg
      · rw [List.filter_cons_of_pos (by simp)]
      · rw [List.filter_cons_of_neg (by have := (g3 g hg).1; simp; omega)]
        exact g4 g hg
    · intro x hx
      rcases List.mem_cons.1 hx with rfl | hx
      · exact ⟨_, List.mem_cons_self .., rfl⟩
      · by_cases hr : x.receiver = e.receiver
        · exact ⟨_, List.mem_cons_self .., hr.symm⟩
        · obtain ⟨g, hg, he⟩ := g5 x hx hr
          exact ⟨g, List.mem_cons_of_mem _ hg, he⟩

/-- C102, what holds. At a step divisible by the period the log gets the step and one section per target neuron that has
synapses, in ascending order; a section lists each synapse ending in that neuron once, ordered by source neuron.  What is
written for a synapse is its *resource* and last spike step. -/
theorem C102_sections_partial (period uid step : Nat) (projs : List (LogProj F)) (syns : List (WSyn F))
    (hfind : projs.find? (fun p => p.1 == uid) = some (uid, some syns)) (hstep : step % period = 0)
    (hmax : ∀ s ∈ syns, s.target ≠ 18446744073709551615) :
    ∃ gs : List (Section F), weightsLog period uid step projs = .ok (.step step :: (printSections gs ++ [.endl])) ∧
      gs.Pairwise (fun a b => a.1 < b.1) ∧ (∀ n, (∃ g ∈ gs, g.1 = n) ↔ ∃ s ∈ syns, s.target = n) ∧
      ∀ g ∈ gs, g.2.Pairwise (fun a b => a.sender ≤ b.sender) ∧
        g.2.Perm ((syns.filter (fun s => s.target == g.1)).map (fun s => ⟨s.target, s.source, s.resource, s.lastSpike⟩)) := by
  have hp := sortBy_perm entryLe (syns.map (fun s : WSyn F => (⟨s.target, s.source, s.resource, s.lastSpike⟩ : Entry F)))
  have hs := sortBy_sorted entryLe entryLe_total entryLe_trans
    (syns.map (fun s : WSyn F => (⟨s.target, s.source, s.resource, s.lastSpike⟩ : Entry F)))
  have hmem : ∀ e ∈ processWeights syns, ∃ s ∈ syns, s.target = e.receiver := by
    intro e he
    obtain ⟨s, hs1, rfl⟩ := List.mem_map.1 (hp.mem_iff.1 he)
    exact ⟨s, hs1, rfl⟩
  obtain ⟨gs, g1, g2, g3, g4, g5⟩ := writeEntries_start (processWeights syns) hs 18446744073709551615 (fun e he => by
    obtain ⟨s, h1, h2⟩ := hmem e he
    rw [← h2]
    exact hmax s h1)
  refine ⟨gs, ?_, g2, fun n => ?_, fun g hg => ?_⟩
  · unfold weightsLog
    rw [if_neg (by omega), hfind]
    dsimp only
    rw [g1]
  · constructor
    · rintro ⟨g, hg, rfl⟩
      cases hl : g.2 with
      | nil => exact absurd hl (g3 g hg)
      | cons e l =>
        have he : e ∈ g.2 := by rw [hl]; exact List.mem_cons_self ..
        rw [g4 g hg, List.mem_filter] at he
        obtain ⟨s, h1, h2⟩ := hmem e he.1
        exact ⟨s, h1, h2.trans (by simpa using he.2)⟩
    · rintro ⟨s, h1, rfl⟩
      exact g5 ⟨s.target, s.source, s.resource, s.lastSpike⟩ (hp.mem_iff.2 (List.mem_map.2 ⟨s, h1, rfl⟩))
  · constructor
    · have hf : g.2.Pairwise (fun a b => entryLe a b = true) := by rw [g4 g hg]; exact hs.filter _
      have hr : ∀ e ∈ g.2, e.receiver = g.1 := by
        intro e he
        rw [g4 g hg, List.mem_filter] at he
        simpa using he.2
      refine List.Pairwise.imp_of_mem ?_ hf
      intro a b ha hb h
      unfold entryLe at h
      rw [if_pos ((hr a ha).trans (hr b hb).symm)] at h
      simpa using h
    · rw [g4 g hg]
      refine (hp.filter _).trans ?_
      rw [List.filter_map]
      exact List.Perm.refl _

/-- C102: nothing is written at other steps; an unknown projection gets only the step line; a projection of another type
throws. -/
theorem C102_other (period uid step : Nat) (projs : List (LogProj F)) :
    (step % period ≠ 0 → weightsLog period uid step projs = .ok []) ∧
    (step % period = 0 → (∀ p ∈ projs, p.1 ≠ uid) → weightsLog period uid step projs = .ok [.step step]) ∧
    (step % period = 0 → projs.find? (fun p => p.1 == uid) = some (uid, none) → (weightsLog period uid step projs).isThrow) := by
  refine ⟨fun h => ?_, fun h h2 => ?_, fun h h2 => ?_⟩
  · unfold weightsLog; rw [if_pos h]
  · have : projs.find? (fun p => p.1 == uid) = none := by
      rw [List.find?_eq_none]
      intro p hp
      simpa using h2 p hp
    unfold weightsLog
    rw [if_neg (by omega), this]
  · unfold weightsLog
    rw [if_neg (by omega), h2]
    rfl

example : weightsLog 5 9 10 [(8, none), (9, some [⟨1, 2, 70, 7, 3⟩, ⟨0, 2, 80, 8, 4⟩, ⟨5, 0, 90, 9, 6⟩])] =
    .ok [.step 10, .neuron 0, .entry 9 6, .neuron 2, .entry 8 4, .entry 7 3, .endl] := by decide

/-- C102 is false: the "weight" written is the synaptic resource, whatever the weight is. -/
theorem C102_refuted : (∀ (a b : List (WSyn F)) (u : UID) (p s : Nat),
      a.map (fun x => (x.source, x.target, x.resource, x.lastSpike)) = b.map (fun x => (x.source, x.target, x.resource, x.lastSpike)) →
      weightsLog p u s [(u, some a)] = weightsLog p u s [(u, some b)]) ∧
    ∃ syns : List (WSyn Nat), syns.map (fun x => x.weight) = [3] ∧ weightsLog 1 9 0 [(9, some syns)] = .ok [.step 0, .neuron 0, .entry 5 0, .endl] := by
  refine ⟨fun a b u p s h => ?_, [⟨0, 0, 3, 5, 0⟩], rfl, by decide⟩
  have hpw : processWeights a = processWeights b := by
    unfold processWeights
    congr 1
    have := congrArg (List.map (fun x : Nat × Nat × F × Nat => (⟨x.2.1, x.1, x.2.2.1, x.2.2.2⟩ : Entry F))) h
    rw [List.map_map, List.map_map] at this
    exact this
  unfold weightsLog
  rw [List.find?_cons_of_pos (by simp), List.find?_cons_of_pos (by simp)]
  dsimp only
  rw [hpw]

end Weights

end Knp.Props
