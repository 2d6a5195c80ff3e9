import Verif.Model.Handlers
import Mathlib.Data.List.Perm.Subperm
import Mathlib.Data.List.Flatten

/-! # C36–C39: winner-take-all and union handlers -/

namespace Knp.Props
open Knp Knp.Handlers

/-! ## Random selection -/

private theorem swapAt_spec {α : Type} (l : List α) (i j : Nat) (hi : i < l.length) (hj : j < l.length) :
    (swapAt l i j).Perm l ∧ (swapAt l i j).length = l.length ∧ (swapAt l i j)[j]? = l[i]? ∧
      ∀ m, i < m → j < m → (swapAt l i j).drop m = l.drop m := by
  have e : swapAt l i j = (l.set i l[j]).set j l[i] := by
    simp [swapAt, List.getElem?_eq_getElem hi, List.getElem?_eq_getElem hj]
  rw [e]
  refine ⟨List.set_set_perm hi hj, by simp, ?_, ?_⟩
  · simp [List.getElem?_set, hj, hi]
  · intro m h1 h2
    rw [List.drop_set_of_lt h2, List.drop_set_of_lt h1]

private theorem selectLoop_spec (draw : Nat → Nat) (n : Nat) : ∀ (i : Nat) (input result : List Nat),
    i + n ≤ input.length → result = (input.drop (input.length - i)).reverse →
    ∃ out : List Nat, out.Perm input ∧
      (selectLoop draw n i input result).2 = (out.drop (input.length - (i + n))).reverse := by
  induction n with
  | zero => intro i input result _ hr; exact ⟨input, List.Perm.refl _, by simpa [selectLoop] using hr⟩
  | succ n ih =>
    intro i input result hlen hr
    have hpos : 0 < input.length - i := by omega
    have hidx : draw i % (input.length - i) < input.length - i := Nat.mod_lt _ hpos
    obtain ⟨idx, hidxe⟩ : ∃ idx, idx = draw i % (input.length - i) := ⟨_, rfl⟩
    have hi1 : idx < input.length := by omega
    have hj1 : input.length - 1 - i < input.length := by omega
    obtain ⟨h1, h2, h3, h4⟩ := swapAt_spec input idx (input.length - 1 - i) hi1 hj1
    unfold selectLoop
    rw [← hidxe]
    simp only [List.getElem?_eq_getElem hi1]
    obtain ⟨out, h5, h6⟩ := ih (i + 1) (swapAt input idx (input.length - 1 - i)) (result ++ [input[idx]])
      (by omega) (by
        have e1 : (swapAt input idx (input.length - 1 - i)).length - (i + 1) = input.length - 1 - i := by
          omega
        have hj2 : input.length - 1 - i < (swapAt input idx (input.length - 1 - i)).length := by omega
        rw [e1, List.drop_eq_getElem_cons hj2]
        have e2 : (swapAt input idx (input.length - 1 - i))[input.length - 1 - i] = input[idx] := by
          have := h3
          rw [List.getElem?_eq_getElem hj2, List.getElem?_eq_getElem hi1] at this
          exact Option.some.inj this
        rw [e2, h4 (input.length - 1 - i + 1) (by omega) (by omega),
          show input.length - 1 - i + 1 = input.length - i by omega, List.reverse_cons, hr])
    refine ⟨out, h5.trans h1, ?_⟩
    rw [h6, h2, show i + 1 + n = i + (n + 1) by omega]

/-- `select_random_n` yields a sub-multiset of size `min n size`. -/
private theorem selectRandomN_spec (draw : Nat → Nat) (input : List Nat) (n : Nat) :
    (selectRandomN draw input n).Subperm input ∧
      (selectRandomN draw input n).length = min n input.length := by
  unfold selectRandomN
  split
  · rename_i h
    exact ⟨List.Subperm.refl _, by omega⟩
  · rename_i h
    obtain ⟨out, h1, h2⟩ := selectLoop_spec draw n 0 input [] (by omega) (by simp)
    rw [h2]
    constructor
    · exact (List.reverse_perm _).subperm.trans ((List.drop_sublist _ _).subperm.trans h1.subperm)
    · rw [List.length_reverse, List.length_drop, h1.length_eq]; omega

/-! ## C36 -/

/-- C36: for every random draw, the handler returns min(k, n) spikes of the incoming message, none of them
more often than it came in. -/
theorem C36_kwta (draw : Nat → Nat) (k : Nat) (msg : SpikeMessage) (others : List SpikeMessage) :
    (kWta draw k (msg :: others)).length = min k msg.neuronIndexes.length ∧
      ∀ x, (kWta draw k (msg :: others)).count x ≤ msg.neuronIndexes.count x := by
  unfold kWta
  simp only
  split
  · rename_i h
    exact ⟨by omega, fun x => Nat.le_refl _⟩
  · obtain ⟨h1, h2⟩ := selectRandomN_spec draw msg.neuronIndexes k
    exact ⟨h2, fun x => h1.count_le x⟩

example : kWta (fun i => 7 * i + 3) 2 [⟨⟨1, 0⟩, [4, 5, 6, 7, 8]⟩] = [7, 6] := by decide

/-- C36: without messages nothing is returned; messages after the first are ignored. -/
theorem C36_kwta_other_messages (draw : Nat → Nat) (k : Nat) (msg : SpikeMessage)
    (others : List SpikeMessage) :
    kWta draw k [] = [] ∧ kWta draw k (msg :: others) = kWta draw k [msg] := ⟨rfl, rfl⟩

/-- C36: the whole claim for several incoming messages – min(k, total number of spikes) – is false: spikes
of a second sender are dropped even if there are fewer than k in all. -/
theorem C36_kwta_all_messages_refuted :
    ¬ ∀ (draw : Nat → Nat) (k : Nat) (msgs : List SpikeMessage),
      (kWta draw k msgs).length = min k ((msgs.map (fun m => m.neuronIndexes.length)).sum) := by
  intro h
  exact absurd (h (fun _ => 0) 5 [⟨⟨1, 0⟩, [1]⟩, ⟨⟨2, 0⟩, [2]⟩]) (by decide)

/-- C36: every winner set is possible – for every position there is a draw that makes it the first winner. -/
theorem C36_kwta_any_winner (k i : Nat) (msg : SpikeMessage) (hk : 0 < k)
    (hn : k < msg.neuronIndexes.length) (hi : i < msg.neuronIndexes.length) :
    ∃ draw, msg.neuronIndexes[i] ∈ kWta draw k [msg] := by
  refine ⟨fun _ => i, ?_⟩
  obtain ⟨n, rfl⟩ : ∃ n, k = n + 1 := ⟨k - 1, by omega⟩
  have hmono : ∀ (d : Nat → Nat) (n i : Nat) (inp res : List Nat) (x : Nat), x ∈ res →
      x ∈ (selectLoop d n i inp res).2 := by
    intro d n
    induction n with
    | zero => intro i inp res x hx; exact hx
    | succ n ih =>
      intro i inp res x hx
      unfold selectLoop
      simp only
      split
      · exact ih _ _ _ _ (List.mem_append_left _ hx)
      · exact hx
  unfold kWta
  simp only
  rw [if_neg (by omega)]
  unfold selectRandomN
  rw [if_neg (by omega)]
  unfold selectLoop
  have : i % (msg.neuronIndexes.length - 0) = i := Nat.mod_eq_of_lt (by omega)
  simp only [this, List.getElem?_eq_getElem hi]
  exact hmono _ _ _ _ _ _ (by simp)

example : kWta (fun _ => 3) 2 [⟨⟨1, 0⟩, [4, 5, 6, 7, 8]⟩] = [7, 8] := by decide

/-! ## Groups -/

/-- The group of a spike in the user's terms: the number of borders at or below it (the borders may be given
in any order). -/
def groupOf (borders : List Nat) (spike : Nat) : Nat := borders.countP (fun b => decide (b ≤ spike))

private theorem sortBorders_sorted (borders : List Nat) :
    (sortBorders borders).Pairwise (fun a b => a ≤ b) := by
  have := sortBy_sorted (fun a b : Nat => decide (a ≤ b))
    (by intro a b; simp only [decide_eq_true_eq]; omega)
    (by intro a b c; simp only [decide_eq_true_eq]; omega) borders
  exact this.imp (by intro a b h; simpa using h)

private theorem takeWhile_countP (s : Nat) (l : List Nat) (h : l.Pairwise (· ≤ ·)) :
    (l.takeWhile (fun b => !decide (s < b))).length = l.countP (fun b => decide (b ≤ s)) := by
  induction l with
  | nil => rfl
  | cons b l ih =>
    have hp := List.pairwise_cons.1 h
    by_cases hb : s < b
    · have : l.countP (fun b => decide (b ≤ s)) = 0 := by
        rw [List.countP_eq_zero]
        intro x hx
        have := hp.1 x hx
        simp only [decide_eq_true_eq]; omega
      have hnb : ¬ b ≤ s := by omega
      simp [hb, this, hnb]
    · have hnb : b ≤ s := by omega
      simp [hnb, ih hp.2]

private theorem groupIndex_eq (borders : List Nat) (s : Nat) :
    groupIndex (sortBorders borders) s = groupOf borders s := by
  unfold groupIndex groupOf
  rw [takeWhile_countP s _ (sortBorders_sorted borders)]
  exact (sortBy_perm _ borders).countP_eq _

private theorem groupOf_le (borders : List Nat) (s : Nat) : groupOf borders s ≤ borders.length :=
  List.countP_le_length

private theorem sortBorders_length (borders : List Nat) : (sortBorders borders).length = borders.length :=
  (sortBy_perm _ borders).length_eq

private theorem fillGroups_spec (borders : List Nat) (ss : List Nat) (gs : List (List Nat)) :
    fillGroups (sortBorders borders) ss gs =
      gs.mapIdx (fun g l => l ++ ss.filter (fun s => decide (groupOf borders s = g))) := by
  induction ss generalizing gs with
  | nil =>
    apply List.ext_getElem?
    intro g
    rw [List.getElem?_mapIdx]
    cases h : gs[g]? <;> simp [fillGroups, h]
  | cons s ss ih =>
    unfold fillGroups
    rw [ih, groupIndex_eq]
    apply List.ext_getElem?
    intro g
    rw [List.getElem?_mapIdx, List.getElem?_mapIdx, List.getElem?_modify]
    by_cases h : groupOf borders s = g
    · cases hg : gs[g]? <;> simp [h]
    · cases hg : gs[g]? <;> simp [h]

/-- The groups are the spikes of each group, in order. -/
private theorem groups_eq (borders spikes : List Nat) :
    groups (sortBorders borders) spikes = (List.range (borders.length + 1)).map
      (fun g => spikes.filter (fun s => decide (groupOf borders s = g))) := by
  unfold groups
  rw [fillGroups_spec, sortBorders_length]
  apply List.ext_getElem?
  intro g
  rw [List.getElem?_mapIdx, List.getElem?_map, List.getElem?_replicate]
  by_cases h : g < borders.length + 1
  · simp [h, List.getElem?_range h]
  · simp [h, List.getElem?_eq_none]

/-! ## C37 -/

private theorem perGroupLoop_eq (draw : Nat → Nat → Nat) (k : Nat) : ∀ (g : Nat) (gs : List (List Nat))
    (res : List Nat), perGroupLoop draw k g gs res =
      res ++ (gs.mapIdx (fun i grp => selectRandomN (draw (g + i)) grp k)).flatten := by
  intro g gs
  induction gs generalizing g with
  | nil => intro res; simp [perGroupLoop]
  | cons grp gs ih =>
    intro res
    unfold perGroupLoop
    rw [ih]
    simp only [List.mapIdx_cons, List.flatten_cons, Nat.add_zero, List.append_assoc]
    have e : (fun i grp => selectRandomN (draw (g + 1 + i)) grp k) =
        (fun i grp => selectRandomN (draw (g + (i + 1))) grp k) := by
      funext i x
      rw [show g + 1 + i = g + (i + 1) by omega]
    rw [e]

/-- C37: for every draw and every border list, the per-group handler returns exactly min(k, size) spikes of
each group, no spike more often than it came in.  The side condition is the `reserve` call: borders × k must
not exceed what a vector can hold. -/
theorem C37_per_group (draw : Nat → Nat → Nat) (maxSize : Nat) (borders : List Nat) (k : Nat)
    (msg : SpikeMessage) (others : List SpikeMessage) (hm : borders.length * k ≤ maxSize) :
    ∃ result, kWtaPerGroup draw maxSize (sortBorders borders) k (msg :: others) = .ok result ∧
      (∀ g, (result.filter (fun s => decide (groupOf borders s = g))).length =
        min k (msg.neuronIndexes.filter (fun s => decide (groupOf borders s = g))).length) ∧
      (∀ x, result.count x ≤ msg.neuronIndexes.count x) := by
  -- counting one spike value or one group in the result
  have main : ∀ spikes : List Nat, ∃ result,
      perGroupLoop draw k 0 (groups (sortBorders borders) spikes) [] = result ∧
      (∀ g, (result.filter (fun s => decide (groupOf borders s = g))).length =
        min k (spikes.filter (fun s => decide (groupOf borders s = g))).length) ∧
      (∀ x, result.count x ≤ spikes.count x) := by
    intro spikes
    refine ⟨_, rfl, ?_⟩
    rw [perGroupLoop_eq, groups_eq]
    simp only [List.nil_append, Nat.zero_add]
    -- the result restricted to group g is the selection from group g
    have hrestr : ∀ g, (((List.range (borders.length + 1)).map
        (fun g => spikes.filter (fun s => decide (groupOf borders s = g)))).mapIdx
          (fun i grp => selectRandomN (draw i) grp k)).flatten.filter
            (fun s => decide (groupOf borders s = g)) =
        if g < borders.length + 1 then
          selectRandomN (draw g) (spikes.filter (fun s => decide (groupOf borders s = g))) k else [] := by
      intro g
      rw [List.filter_flatten]
      have hmap : ((List.range (borders.length + 1)).map
          (fun g => spikes.filter (fun s => decide (groupOf borders s = g)))).mapIdx
            (fun i grp => selectRandomN (draw i) grp k) =
          (List.range (borders.length + 1)).map (fun i => selectRandomN (draw i)
            (spikes.filter (fun s => decide (groupOf borders s = i))) k) := by
        apply List.ext_getElem?
        intro j
        rw [List.getElem?_mapIdx, List.getElem?_map, List.getElem?_map]
        by_cases h : j < borders.length + 1
        · simp [List.getElem?_range h]
        · simp [List.getElem?_eq_none, h]
      rw [hmap, List.map_map]
      have hsel : ∀ i, (selectRandomN (draw i)
          (spikes.filter (fun s => decide (groupOf borders s = i))) k).filter
            (fun s => decide (groupOf borders s = g)) =
          if i = g then selectRandomN (draw i)
            (spikes.filter (fun s => decide (groupOf borders s = i))) k else [] := by
        intro i
        have hsub := (selectRandomN_spec (draw i)
          (spikes.filter (fun s => decide (groupOf borders s = i))) k).1.subset
        have hall : ∀ x ∈ selectRandomN (draw i)
            (spikes.filter (fun s => decide (groupOf borders s = i))) k, groupOf borders x = i := by
          intro x hx
          simpa using (List.mem_filter.1 (hsub hx)).2
        split
        · rename_i e
          exact List.filter_eq_self.2 (fun x hx => by simp [hall x hx, e])
        · rename_i e
          exact List.filter_eq_nil_iff.2 (fun x hx => by simp [hall x hx, e])
      have hcomp : ((List.filter fun s => decide (groupOf borders s = g)) ∘ fun i =>
          selectRandomN (draw i) (spikes.filter (fun s => decide (groupOf borders s = i))) k) =
          fun i => if i = g then selectRandomN (draw i)
            (spikes.filter (fun s => decide (groupOf borders s = i))) k else [] := by
        funext i; exact hsel i
      rw [hcomp]
      have hflat : ∀ (n : Nat) (f : Nat → List Nat),
          ((List.range n).map (fun i => if i = g then f i else [])).flatten =
            if g < n then f g else [] := by
        intro n f
        induction n with
        | zero => simp
        | succ n ih =>
          rw [List.range_succ, List.map_append, List.flatten_append, ih]
          by_cases h1 : g < n
          · have h2 : ¬ n = g := by omega
            simp [h1, h2, show g < n + 1 by omega]
          · by_cases h2 : n = g
            · subst h2; simp
            · simp [h1, h2, show ¬ g < n + 1 by omega]
      exact hflat _ (fun i => selectRandomN (draw i)
        (spikes.filter (fun s => decide (groupOf borders s = i))) k)
    constructor
    · intro g
      rw [hrestr g]
      split
      · exact (selectRandomN_spec _ _ _).2
      · rename_i h
        have : spikes.filter (fun s => decide (groupOf borders s = g)) = [] := by
          apply List.filter_eq_nil_iff.2
          intro x _
          have := groupOf_le borders x
          simp only [decide_eq_true_eq]; omega
        rw [this]; simp
    · intro x
      have hc : ∀ l : List Nat, l.count x =
          (l.filter (fun s => decide (groupOf borders s = groupOf borders x))).count x := by
        intro l
        rw [List.count_filter (by simp)]
      rw [hc, hrestr, hc spikes]
      split
      · exact (selectRandomN_spec _ _ _).1.count_le x
      · simp
  unfold kWtaPerGroup
  simp only [sortBorders_length]
  by_cases he : msg.neuronIndexes = []
  · refine ⟨[], by simp [he], ?_, ?_⟩
    · intro g; simp [he]
    · intro x; simp
  · have hne : msg.neuronIndexes.isEmpty = false := by simpa using he
    have hr : ¬ maxSize < borders.length * k % two64 := by
      have := Nat.mod_le (borders.length * k) two64
      omega
    obtain ⟨result, h1, h2, h3⟩ := main msg.neuronIndexes
    exact ⟨result, by rw [hne, if_neg (by simp), if_neg hr, h1], h2, h3⟩

/-- Borders 4 and 8 (given unsorted), one winner per group. -/
example : kWtaPerGroup (fun _ i => i) 1000 (sortBorders [8, 4]) 1
    [⟨⟨1, 0⟩, [9, 1, 4, 2, 7, 8]⟩] = .ok [1, 4, 9] := by decide

/-! ## C38 -/

/-- C38, full statement: for every sorting algorithm and every shuffle, the handler returns all spikes of `k`
groups (all of them if there are not more) such that no dropped group is larger than a kept one. -/
def C38_statement : Prop :=
  ∀ (sortFn shuffle : List (List Nat) → List (List Nat)),
    (∀ l, (sortFn l).Perm l ∧ (sortFn l).Pairwise (fun a b => b.length ≤ a.length)) →
    (∀ l, (shuffle l).Perm l) →
    ∀ (borders : List Nat) (k : Nat) (msg : SpikeMessage) (others : List SpikeMessage),
      ∃ (result : List Nat) (kept dropped : List (List Nat)),
        groupWta sortFn shuffle (sortBorders borders) k (msg :: others) = .ok result ∧
        result.Perm kept.flatten ∧
        (kept ++ dropped).Perm ((List.range (borders.length + 1)).map
          (fun g => msg.neuronIndexes.filter (fun s => decide (groupOf borders s = g)))) ∧
        kept.length = min k (borders.length + 1) ∧
        ∀ a ∈ kept, ∀ b ∈ dropped, b.length ≤ a.length

/-- C38 is false only for zero winners, which is undefined behaviour. -/
theorem C38_group_wta_refuted : ¬ C38_statement := by
  intro h
  obtain ⟨r, _, _, h1, _⟩ := h (sortBy (fun a b => decide (b.length ≤ a.length))) id
    (fun l => ⟨sortBy_perm _ l, (sortBy_sorted _ (by
      intro a b; simp only [decide_eq_true_eq]; omega) (by
      intro a b c; simp only [decide_eq_true_eq]; omega) l).imp (by intro a b h; simpa using h)⟩)
    (fun l => List.Perm.refl _) [4] 0 ⟨⟨1, 0⟩, [3]⟩ []
  have : groupWta (sortBy (fun a b => decide (b.length ≤ a.length))) id (sortBorders [4]) 0
    [⟨⟨1, 0⟩, [3]⟩] = .ub := by rfl
  rw [this] at h1
  cases h1

private theorem perm_flatten_groups (borders spikes : List Nat) :
    spikes.Perm ((List.range (borders.length + 1)).map
      (fun g => spikes.filter (fun s => decide (groupOf borders s = g)))).flatten := by
  rw [List.perm_iff_count]
  intro x
  rw [List.count_flatten, List.map_map]
  have hf : (List.count x ∘ fun g => spikes.filter (fun s => decide (groupOf borders s = g))) =
      fun g => if g = groupOf borders x then spikes.count x else 0 := by
    funext g
    simp only [Function.comp_apply]
    by_cases h : groupOf borders x = g
    · rw [List.count_filter (by simp [h]), if_pos h.symm]
    · rw [if_neg (fun e => h e.symm)]
      apply List.count_eq_zero.2
      intro hm
      exact h (by simpa using (List.mem_filter.1 hm).2)
  rw [hf]
  have hsum : ∀ n c g, ((List.range n).map (fun i => if i = g then c else 0)).sum =
      if g < n then c else 0 := by
    intro n c g
    induction n with
    | zero => simp
    | succ n ih =>
      rw [List.range_succ, List.map_append, List.sum_append, ih]
      by_cases h1 : g < n
      · simp [h1, show ¬ n = g by omega, show g < n + 1 by omega]
      · by_cases h2 : n = g
        · subst h2; simp
        · simp [h1, h2, show ¬ g < n + 1 by omega]
  rw [hsum, if_pos]
  have := groupOf_le borders x
  omega

/-- C38, what holds: everything, for at least one winner. -/
theorem C38_group_wta_partial (sortFn shuffle : List (List Nat) → List (List Nat))
    (hsort : ∀ l, (sortFn l).Perm l ∧ (sortFn l).Pairwise (fun a b => b.length ≤ a.length))
    (hshuf : ∀ l, (shuffle l).Perm l)
    (borders : List Nat) (k : Nat) (hk : 0 < k) (msg : SpikeMessage) (others : List SpikeMessage) :
    ∃ (result : List Nat) (kept dropped : List (List Nat)),
      groupWta sortFn shuffle (sortBorders borders) k (msg :: others) = .ok result ∧
      result.Perm kept.flatten ∧
      (kept ++ dropped).Perm ((List.range (borders.length + 1)).map
        (fun g => msg.neuronIndexes.filter (fun s => decide (groupOf borders s = g)))) ∧
      kept.length = min k (borders.length + 1) ∧
      ∀ a ∈ kept, ∀ b ∈ dropped, b.length ≤ a.length := by
  unfold groupWta
  simp only [sortBorders_length]
  by_cases h1 : borders.length < k
  · rw [if_pos h1]
    refine ⟨msg.neuronIndexes, _, [], rfl, perm_flatten_groups borders msg.neuronIndexes, by simp, ?_,
      by simp⟩
    simp; omega
  · rw [if_neg h1]
    by_cases he : msg.neuronIndexes = []
    · refine ⟨[], List.replicate k [], List.replicate (borders.length + 1 - k) [], by simp [he], ?_, ?_, ?_, ?_⟩
      · simp
      · rw [List.replicate_append_replicate, show k + (borders.length + 1 - k) = borders.length + 1 by omega]
        simp only [he, List.filter_nil]
        rw [List.map_const', List.length_range]
      · simp; omega
      · intro a _ b hb
        rw [List.eq_of_mem_replicate hb]
        simp
    · have hne : msg.neuronIndexes.isEmpty = false := by simpa using he
      rw [hne, if_neg (by simp), if_neg (by omega)]
      rw [groups_eq]
      generalize hG : (List.range (borders.length + 1)).map
        (fun g => msg.neuronIndexes.filter (fun s => decide (groupOf borders s = g))) = G
      have hGlen : G.length = borders.length + 1 := by rw [← hG]; simp
      obtain ⟨hperm, hsorted⟩ := hsort G
      have hlen : (sortFn G).length = borders.length + 1 := by rw [hperm.length_eq, hGlen]
      have hk1 : k - 1 < (sortFn G).length := by omega
      simp only [List.getElem?_eq_getElem hk1]
      generalize (sortFn G)[k - 1] = last
      generalize sortFn G = S at hperm hsorted hlen
      let before := S.takeWhile (fun g => decide (last.length < g.length))
      let rest := S.dropWhile (fun g => decide (last.length < g.length))
      let block := rest.takeWhile (fun g => !decide (g.length < last.length))
      let after := rest.dropWhile (fun g => !decide (g.length < last.length))
      have hS : S = before ++ block ++ after := by
        show S = S.takeWhile _ ++ rest.takeWhile _ ++ rest.dropWhile _
        rw [List.append_assoc, List.takeWhile_append_dropWhile]
        exact List.takeWhile_append_dropWhile.symm
      have hrest : ∀ g ∈ rest, g.length ≤ last.length := by
        have hsr : rest.Pairwise (fun a b => b.length ≤ a.length) :=
          hsorted.sublist (List.dropWhile_sublist _)
        have hhead : ∀ g, rest.head? = some g → g.length ≤ last.length := by
          intro g hg
          have := List.head?_dropWhile_not (fun g : List Nat => decide (last.length < g.length)) S
          rw [show List.dropWhile (fun g : List Nat => decide (last.length < g.length)) S = rest from rfl,
            hg] at this
          simpa using this
        cases hr : rest with
        | nil => intro g hg; simp at hg
        | cons a l =>
          rw [hr] at hsr hhead
          have hp := List.pairwise_cons.1 hsr
          have ha := hhead a rfl
          intro g hg
          rcases List.mem_cons.1 hg with rfl | hg
          · exact ha
          · exact Nat.le_trans (hp.1 g hg) ha
      have hblock : ∀ g ∈ block, g.length = last.length := by
        intro g hg
        have h2 := List.all_eq_true.1 List.all_takeWhile g hg
        have h3 : g ∈ rest := (List.takeWhile_sublist _).subset hg
        have := hrest g h3
        simp only [Bool.not_eq_true', decide_eq_false_iff_not] at h2
        omega
      have hmap : (before ++ shuffle block ++ after).map List.length = S.map List.length := by
        rw [hS]
        simp only [List.map_append]
        congr 2
        have e1 : block.map List.length = List.replicate block.length last.length :=
          List.eq_replicate_iff.2 ⟨by simp, by simpa using hblock⟩
        have e2 : (shuffle block).map List.length = List.replicate block.length last.length := by
          refine List.eq_replicate_iff.2 ⟨by simp [(hshuf block).length_eq], ?_⟩
          intro b hb
          obtain ⟨g, hg, rfl⟩ := List.mem_map.1 hb
          exact hblock g ((hshuf block).mem_iff.1 hg)
        rw [e1, e2]
      have hperm2 : (before ++ shuffle block ++ after).Perm G := by
        refine List.Perm.trans ?_ (hS ▸ hperm)
        exact ((hshuf block).append_left before).append_right after
      have hsorted2 : (before ++ shuffle block ++ after).Pairwise (fun a b => b.length ≤ a.length) := by
        have : ((before ++ shuffle block ++ after).map List.length).Pairwise (fun a b => b ≤ a) := by
          rw [hmap]
          exact List.pairwise_map.2 hsorted
        exact List.pairwise_map.1 this
      refine ⟨_, (before ++ shuffle block ++ after).take k, (before ++ shuffle block ++ after).drop k, rfl,
        List.Perm.refl _, ?_, ?_, ?_⟩
      · rw [List.take_append_drop]; exact hperm2
      · rw [List.length_take, hperm2.length_eq, hGlen]
      · have := (List.take_append_drop k (before ++ shuffle block ++ after)) ▸ hsorted2
        exact (List.pairwise_append.1 this).2.2

/-- Groups {1,2}, {4}, {9,10,11} (borders 4 and 8), two winners: group {4} is dropped. -/
example : groupWta (sortBy (fun a b => decide (b.length ≤ a.length))) List.reverse (sortBorders [4, 8]) 2
    [⟨⟨1, 0⟩, [1, 9, 10, 4, 2, 11]⟩] = .ok [9, 10, 11, 1, 2] := by decide

/-! ## C39 -/

/-- C39: the union contains each neuron index of any message exactly once and nothing else. -/
theorem C39_union (msgs : List SpikeMessage) :
    (spikeUnion msgs).Nodup ∧ ∀ x, x ∈ spikeUnion msgs ↔ ∃ m ∈ msgs, x ∈ m.neuronIndexes := by
  have h1 : ∀ (l s : List Nat), s.Nodup → (l.foldl insertNew s).Nodup ∧
      ∀ x, x ∈ l.foldl insertNew s ↔ x ∈ s ∨ x ∈ l := by
    intro l
    induction l with
    | nil => intro s h; exact ⟨h, by simp⟩
    | cons a l ih =>
      intro s h
      have hs : (insertNew s a).Nodup ∧ ∀ x, x ∈ insertNew s a ↔ x ∈ s ∨ x = a := by
        unfold insertNew
        split
        · rename_i ha
          refine ⟨h, fun x => ⟨Or.inl, ?_⟩⟩
          rintro (hx | rfl)
          · exact hx
          · exact ha
        · rename_i ha
          refine ⟨?_, by simp⟩
          refine List.nodup_append.2 ⟨h, by simp, ?_⟩
          intro b hb c hc
          rw [List.mem_singleton.1 hc]
          intro e; exact ha (e ▸ hb)
      obtain ⟨h3, h4⟩ := ih _ hs.1
      refine ⟨h3, fun x => ?_⟩
      rw [List.foldl_cons, h4, hs.2, List.mem_cons, or_assoc]
  have h2 : ∀ (msgs : List SpikeMessage) (s : List Nat), s.Nodup →
      (msgs.foldl (fun s m => m.neuronIndexes.foldl insertNew s) s).Nodup ∧
      ∀ x, x ∈ msgs.foldl (fun s m => m.neuronIndexes.foldl insertNew s) s ↔
        x ∈ s ∨ ∃ m ∈ msgs, x ∈ m.neuronIndexes := by
    intro msgs
    induction msgs with
    | nil => intro s h; exact ⟨h, by simp⟩
    | cons m msgs ih =>
      intro s h
      obtain ⟨h3, h4⟩ := h1 m.neuronIndexes s h
      obtain ⟨h5, h6⟩ := ih _ h3
      refine ⟨h5, fun x => ?_⟩
      rw [List.foldl_cons, h6, h4]
      simp [or_assoc]
  obtain ⟨a, b⟩ := h2 msgs [] List.nodup_nil
  exact ⟨a, fun x => by simpa [spikeUnion] using b x⟩

example : spikeUnion [⟨⟨1, 0⟩, [1, 2, 1]⟩, ⟨⟨2, 0⟩, [3, 2]⟩] = [1, 2, 3] := by decide

end Knp.Props
