import Verif.Lemmas.Storage

/-!
# C74, C103: spike data files
-/

namespace Knp.Props
open Knp Knp.Store Knp.Spec

/-! ## C74 -/

private theorem flat_nodes (sorted : List SpikeMessage) :
    sorted.flatMap (fun m => m.neuronIndexes.map (fun i : Nat => (i : Int))) = (pairsOf sorted).map (fun x => (x.2 : Int)) := by
  unfold pairsOf
  rw [List.map_flatMap]
  simp [Function.comp_def]

private theorem flat_times (sorted : List SpikeMessage) (f : Nat → Rat) :
    sorted.flatMap (fun m => m.neuronIndexes.map (fun _ => f m.header.sendTime)) = (pairsOf sorted).map (fun x => f x.1) := by
  unfold pairsOf
  rw [List.map_flatMap]
  simp [Function.comp_def]

private theorem convert_pairs (xs : List (Nat × Nat)) (f : Nat × Nat → Rat) (g : Nat × Nat → Nat) (uid : UID) (tps : Rat) (htps : tps ≠ 0)
    (h : ∀ x ∈ xs, castStep (toFloat (f x / tps)) = .ok (g x)) (hi : ∀ x ∈ xs, x.2 < 4294967296) :
    ∃ r, convert (xs.map (fun x => (x.2 : Int))) (xs.map f) uid tps = .ok r ∧
      Loaded uid (fun s => ((xs.map (fun x => (g x, x.2))).filter (fun x => decide (x.1 = s))).map (fun x => x.2)) r := by
  have hx : xs.map (fun x => (g x, narrow32 (x.2 : Int))) = xs.map (fun x => (g x, x.2)) := by
    apply List.map_congr_left
    intro x hx
    rw [narrow32_nat x.2 (hi x hx)]
  refine ⟨sortBy (fun a b => decide (a.header.sendTime ≤ b.header.sendTime)) (addPairs uid (xs.map (fun x => (g x, x.2))) []), ?_,
    sortPairs_loaded uid _⟩
  unfold convert
  rw [if_neg (by simp), if_neg (by simp [htps]), groupLoop_eq uid tps xs (fun x => (x.2 : Int)) f g [] h, hx]

/-- What holds of a save/load round trip: the result is the specified list for the saved order, and at every step its spikes are
those of the original messages (in the same order if no two messages have the same step). -/
structure RoundTrip (uid : UID) (msgs : List SpikeMessage) (r : List SpikeMessage) : Prop where
  ascending : r.Pairwise (fun a b => a.header.sendTime < b.header.sendTime)
  sender : ∀ m ∈ r, m.header.senderUid = uid ∧ m.neuronIndexes ≠ []
  spikes : ∀ s, (spikesAt r s).Perm (spikesAt msgs s)
  order : (msgs.map (fun m => m.header.sendTime)).Nodup → ∀ s, spikesAt r s = spikesAt msgs s

private theorem roundTrip_of (uid : UID) (msgs sorted r : List SpikeMessage) (hp : sorted.Perm msgs) (h : Loaded uid (spikesAt sorted) r) :
    RoundTrip uid msgs r :=
  ⟨h.ascending, h.sender, fun s => by rw [h.spikes s]; exact spikesAt_perm hp s,
    fun hn s => by rw [h.spikes s]; exact spikesAt_perm_eq hp hn s⟩

private theorem getInts_ok (l : List Int) (h : ∀ i ∈ l, -2147483648 ≤ i ∧ i < 2147483648) : getInts l = .ok l := by
  induction l with
  | nil => rfl
  | cons i l ih =>
    unfold getInts
    rw [if_pos (h i (List.mem_cons_self ..)), ih (fun j hj => h j (List.mem_cons_of_mem _ hj))]

private theorem f24_nat (n : Nat) (h : n < 16777216) : toFloat (n : Rat) = n := rnd_nat 24 n h

private theorem map_pairs_id (sorted : List SpikeMessage) : (pairsOf sorted).map (fun x => (x.1, x.2)) = pairsOf sorted := by
  simp

/-- C74, JSON. For steps below 2^24 and indexes below 2^31, whatever order the sort gives to messages of the same step, saving
and loading round-trips. -/
theorem C74_json_partial (msgs sorted : List SpikeMessage) (hp : sorted.Perm msgs)
    (_hs : sorted.Pairwise (fun a b => a.header.sendTime ≤ b.header.sendTime)) (uid : UID) (strict : Bool)
    (hstep : ∀ m ∈ msgs, m.header.sendTime < 16777216) (hidx : ∀ m ∈ msgs, ∀ i ∈ m.neuronIndexes, i < 2147483648) :
    ∃ r, loadJson (saveJson sorted) uid strict = .ok r ∧ RoundTrip uid msgs r := by
  have hmem : ∀ x ∈ pairsOf sorted, x.1 < 16777216 ∧ x.2 < 2147483648 := by
    intro x hx
    obtain ⟨m, hm, h1, h2⟩ := pairsOf_mem sorted x hx
    exact ⟨h1 ▸ hstep m (hp.mem_iff.1 hm), hidx m (hp.mem_iff.1 hm) _ h2⟩
  have htime : ∀ n : Nat, n < 16777216 → toFloat (toDouble (n : Rat)) = n := by
    intro n hn
    have : toDouble (n : Rat) = n := rnd_nat 53 n (by omega)
    rw [this, f24_nat n hn]
  obtain ⟨r, h1, h2⟩ := convert_pairs (pairsOf sorted) (fun x => toFloat (toDouble (x.1 : Rat))) (fun x => x.1) uid 1 (by norm_num)
    (fun x hx => by
      have := (hmem x hx).1
      rw [htime x.1 this, div_one, f24_nat x.1 this]
      exact castStep_nat x.1 (by have h64 : 16777216 < two64 := by decide
                                 omega))
    (fun x hx => by have := (hmem x hx).2; omega)
  refine ⟨r, ?_, roundTrip_of uid msgs sorted r hp ?_⟩
  · unfold loadJson
    have hm : jsonMagic (saveJson sorted) = .ok true := rfl
    rw [hm]
    have hn : (saveJson sorted).nodes = (pairsOf sorted).map (fun x => (x.2 : Int)) := flat_nodes sorted
    have ht : (saveJson sorted).times = (pairsOf sorted).map (fun x => (x.1 : Rat)) := flat_times sorted (fun n => (n : Rat))
    dsimp only
    rw [if_neg (by simp), hn, ht, getInts_ok _ (by
      intro i hi
      obtain ⟨x, hx, rfl⟩ := List.mem_map.1 hi
      have := (hmem x hx).2
      omega), List.map_map]
    exact h1
  · rw [map_pairs_id] at h2
    have : (fun s => ((pairsOf sorted).filter (fun x => decide (x.1 = s))).map (fun x => x.2)) = spikesAt sorted := by
      funext s
      exact pairsOf_filter sorted s
    rwa [this] at h2

/-- C74, HDF5 with `time_per_step` 1 (the default): the same for all indexes. -/
theorem C74_h5_partial (msgs sorted : List SpikeMessage) (hp : sorted.Perm msgs)
    (_hs : sorted.Pairwise (fun a b => a.header.sendTime ≤ b.header.sendTime)) (uid : UID) (strict : Bool)
    (hstep : ∀ m ∈ msgs, m.header.sendTime < 16777216) (hidx : ∀ m ∈ msgs, ∀ i ∈ m.neuronIndexes, i < 4294967296) :
    ∃ r, loadH5 (saveH5 sorted 1) uid 1 strict = .ok r ∧ RoundTrip uid msgs r := by
  have hmem : ∀ x ∈ pairsOf sorted, x.1 < 16777216 ∧ x.2 < 4294967296 := by
    intro x hx
    obtain ⟨m, hm, h1, h2⟩ := pairsOf_mem sorted x hx
    exact ⟨h1 ▸ hstep m (hp.mem_iff.1 hm), hidx m (hp.mem_iff.1 hm) _ h2⟩
  obtain ⟨r, h1, h2⟩ := convert_pairs (pairsOf sorted) (fun x => toFloat (toFloat (x.1 : Rat) * 1)) (fun x => x.1) uid 1 (by norm_num)
    (fun x hx => by
      have := (hmem x hx).1
      rw [f24_nat x.1 this, mul_one, f24_nat x.1 this, div_one, f24_nat x.1 this]
      exact castStep_nat x.1 (by have h64 : 16777216 < two64 := by decide
                                 omega))
    (fun x hx => (hmem x hx).2)
  refine ⟨r, ?_, roundTrip_of uid msgs sorted r hp ?_⟩
  · unfold loadH5
    have hm : h5Magic (saveH5 sorted 1) strict = .ok true := rfl
    have hv : h5Version (saveH5 sorted 1) = .ok true := rfl
    have hn : (saveH5 sorted 1).nodes = (pairsOf sorted).map (fun x => (x.2 : Int)) := flat_nodes sorted
    have ht : (saveH5 sorted 1).times = (pairsOf sorted).map (fun x => toFloat (toFloat (x.1 : Rat) * 1)) :=
      flat_times sorted (fun n => toFloat (toFloat (n : Rat) * 1))
    rw [hm]
    dsimp only
    rw [hv]
    dsimp only
    rw [hn, ht, if_neg (by simp)]
    exact h1
  · rw [map_pairs_id] at h2
    have : (fun s => ((pairsOf sorted).filter (fun x => decide (x.1 = s))).map (fun x => x.2)) = spikesAt sorted := by
      funext s
      exact pairsOf_filter sorted s
    rwa [this] at h2

/-- C74: a round trip of messages of different steps gives back exactly the non-empty messages, in step order, with the given
sender. -/
theorem C74_exact (uid : UID) (msgs sorted r : List SpikeMessage) (h : RoundTrip uid msgs r) (hp : sorted.Perm msgs)
    (hn : (msgs.map (fun m => m.header.sendTime)).Nodup) (hs : sorted.Pairwise (fun a b => a.header.sendTime ≤ b.header.sendTime)) :
    r = (sorted.filter (fun m => m.neuronIndexes ≠ [])).map (fun m => ⟨⟨uid, m.header.sendTime⟩, m.neuronIndexes⟩) := by
  have h1 : Loaded uid (spikesAt msgs) r := ⟨h.ascending, h.sender, h.order hn⟩
  refine loaded_unique h1 ⟨?_, ?_, ?_⟩
  · rw [List.pairwise_map]
    have hnd : (sorted.map (fun m => m.header.sendTime)).Nodup := (hp.map (fun m => m.header.sendTime)).nodup_iff.2 hn
    have hne : sorted.Pairwise (fun a b => a.header.sendTime ≠ b.header.sendTime) := List.pairwise_map.1 hnd
    exact ((hs.and hne).filter _).imp (fun {a b} h => by have := h.1; have := h.2; dsimp only; omega)
  · intro m hm
    obtain ⟨x, hx, rfl⟩ := List.mem_map.1 hm
    exact ⟨rfl, by simpa using (List.mem_filter.1 hx).2⟩
  · intro s
    rw [← spikesAt_perm_eq hp hn s]
    clear hs hn h1 h hp
    induction sorted with
    | nil => rfl
    | cons m ms ih =>
      by_cases he : m.neuronIndexes = []
      · rw [List.filter_cons_of_neg (by simpa using he), ih, spikesAt_cons, he]
        simp
      · rw [List.filter_cons_of_pos (by simpa using he), List.map_cons, spikesAt_cons, spikesAt_cons, ih]

/-- Three messages of two senders, two in the same step. -/
def exStore : List SpikeMessage := [⟨⟨7, 3⟩, [5, 1]⟩, ⟨⟨8, 1⟩, [2]⟩, ⟨⟨8, 3⟩, [1]⟩]

example : (∀ m ∈ exStore, m.header.sendTime < 16777216) ∧ (∀ m ∈ exStore, ∀ i ∈ m.neuronIndexes, i < 2147483648) ∧
    loadJson (saveJson [⟨⟨8, 1⟩, [2]⟩, ⟨⟨7, 3⟩, [5, 1]⟩, ⟨⟨8, 3⟩, [1]⟩]) 9 true = .ok [⟨⟨9, 1⟩, [2]⟩, ⟨⟨9, 3⟩, [5, 1, 1]⟩] := by
  decide +kernel

/-- C74 is false for large steps: a spike of step 2^24 + 1 comes back at step 2^24. -/
theorem C74_large_step_refuted :
    loadJson (saveJson [⟨⟨7, 16777217⟩, [0]⟩]) 9 true = .ok [⟨⟨9, 16777216⟩, [0]⟩] ∧
    loadH5 (saveH5 [⟨⟨7, 16777217⟩, [0]⟩] 1) 9 1 true = .ok [⟨⟨9, 16777216⟩, [0]⟩] := by
  decide +kernel

/-- C74 is false for JSON and large indexes: loading is undefined behaviour (an assertion of the JSON library). -/
theorem C74_large_index_ub : loadJson (saveJson [⟨⟨7, 0⟩, [2147483648]⟩]) 9 true = .ub := by decide +kernel

/-- C74 is false for HDF5 with other time units: with `time_per_step = 0.01f` the spikes of step 15 come back at step 14, merged
with those of step 14. -/
theorem C74_time_unit_refuted :
    loadH5 (saveH5 [⟨⟨7, 14⟩, [0]⟩, ⟨⟨7, 15⟩, [1]⟩] (toFloat (1 / 100))) 9 (toFloat (1 / 100)) true = .ok [⟨⟨9, 14⟩, [0, 1]⟩] := by
  decide +kernel

/-- C74, how wrong other time units can be: for any positive `time_per_step` and steps up to 2^22 a spike comes back in its own
step or in the step before. -/
theorem C74_time_unit_partial (m : SpikeMessage) (tps : Rat) (uid : UID) (strict : Bool) (ht : 0 < tps)
    (hstep : m.header.sendTime ≤ 4194304) (hne : m.neuronIndexes ≠ []) (hidx : ∀ i ∈ m.neuronIndexes, i < 4294967296) :
    ∃ s, (s = m.header.sendTime ∨ s + 1 = m.header.sendTime) ∧
      loadH5 (saveH5 [m] tps) uid tps strict = .ok [⟨⟨uid, s⟩, m.neuronIndexes⟩] := by
  have hcast : ∃ s, (s = m.header.sendTime ∨ s + 1 = m.header.sendTime) ∧
      castStep (toFloat (toFloat (toFloat (m.header.sendTime : Rat) * tps) / tps)) = .ok s := by
    generalize m.header.sendTime = n at *
    rw [f24_nat n (by omega)]
    rcases Nat.eq_zero_or_pos n with rfl | hpos
    · refine ⟨0, Or.inl rfl, ?_⟩
      have : toFloat (toFloat (((0 : Nat) : Rat) * tps) / tps) = ((0 : Nat) : Rat) := by
        simp [toFloat, rnd]
      rw [this]
      exact castStep_nat 0 (by decide)
    · have hn : (0 : Rat) < n := by exact_mod_cast hpos
      have hn2 : (n : Rat) ≤ 4194304 := by exact_mod_cast hstep
      have hu : (2 : Rat) ^ (-((24 : Nat) : Int)) = 1 / 16777216 := by norm_num
      have e1 := rnd_err 24 (n * tps) (mul_pos hn ht)
      rw [hu, abs_le] at e1
      change _ ≤ toFloat (n * tps) - n * tps ∧ toFloat (n * tps) - n * tps ≤ _ at e1
      generalize hy : toFloat (n * tps) = y at *
      have hnt := mul_pos hn ht
      have hypos : 0 < y := by linarith [e1.1]
      have hyt : 0 < y / tps := div_pos hypos ht
      have hlo : (n : Rat) - n * (1 / 16777216) ≤ y / tps := by
        rw [le_div_iff₀ ht]; nlinarith [e1.1]
      have hhi : y / tps ≤ (n : Rat) + n * (1 / 16777216) := by
        rw [div_le_iff₀ ht]; nlinarith [e1.2]
      have e2 := rnd_err 24 (y / tps) hyt
      rw [hu, abs_le] at e2
      change _ ≤ toFloat (y / tps) - y / tps ∧ toFloat (y / tps) - y / tps ≤ _ at e2
      generalize hz : toFloat (y / tps) = z at *
      have hzlo : (n : Rat) - 1 < z := by nlinarith [e2.1]
      have hzhi : z < (n : Rat) + 1 := by nlinarith [e2.2]
      have hz0 : 0 ≤ z := by
        have : (1 : Rat) ≤ n := by exact_mod_cast hpos
        linarith
      have hf1 : (z.floor : Rat) ≤ z := Rat.floor_le z
      have hf2 : z < z.floor + 1 := by exact_mod_cast Rat.lt_floor_add_one z
      have hl : (z.floor : Rat) < n + 1 := by linarith
      have hg : (n : Rat) - 2 < z.floor := by linarith
      have hl' : z.floor < (n : Int) + 1 := by exact_mod_cast hl
      have hg' : (n : Int) - 2 < z.floor := by exact_mod_cast hg
      have hfz : 0 ≤ z.floor := by
        have : (-1 : Rat) < z.floor := by linarith
        have : (-1 : Int) < z.floor := by exact_mod_cast this
        omega
      refine ⟨z.floor.toNat, by omega, ?_⟩
      unfold castStep
      rw [if_neg]
      rintro (h | h)
      · linarith
      · have h64 : (4194305 : Rat) ≤ (two64 : Rat) := by
          have : 4194305 ≤ two64 := by decide
          exact_mod_cast this
        linarith
  obtain ⟨s, hs, hc⟩ := hcast
  refine ⟨s, hs, ?_⟩
  have hpairs : pairsOf [m] = m.neuronIndexes.map (fun i => (m.header.sendTime, i)) := by simp [pairsOf]
  have hm1 : ∀ x ∈ pairsOf [m], x.1 = m.header.sendTime ∧ x.2 < 4294967296 := by
    intro x hx
    rw [hpairs] at hx
    obtain ⟨i, hi, rfl⟩ := List.mem_map.1 hx
    exact ⟨rfl, hidx i hi⟩
  obtain ⟨r, h1, h2⟩ := convert_pairs (pairsOf [m]) (fun x => toFloat (toFloat (x.1 : Rat) * tps)) (fun _ => s) uid tps ht.ne'
    (fun x hx => by rw [(hm1 x hx).1]; exact hc) (fun x hx => (hm1 x hx).2)
  have hr : r = [⟨⟨uid, s⟩, m.neuronIndexes⟩] := by
    refine loaded_unique h2 ⟨List.pairwise_singleton _ _, ?_, ?_⟩
    · intro x hx
      rw [List.mem_singleton] at hx
      subst hx
      exact ⟨rfl, hne⟩
    · intro t
      rw [spikesAt_cons, hpairs, List.map_map]
      by_cases hst : s = t
      · subst hst
        simp [spikesAt, Function.comp_def, List.filter_map]
      · simp [spikesAt, Function.comp_def, List.filter_map, hst]
  unfold loadH5
  have hm : h5Magic (saveH5 [m] tps) strict = .ok true := rfl
  have hv : h5Version (saveH5 [m] tps) = .ok true := rfl
  have hnn : (saveH5 [m] tps).nodes = (pairsOf [m]).map (fun x => (x.2 : Int)) := flat_nodes [m]
  have htt : (saveH5 [m] tps).times = (pairsOf [m]).map (fun x => toFloat (toFloat (x.1 : Rat) * tps)) :=
    flat_times [m] (fun n => toFloat (toFloat (n : Rat) * tps))
  rw [hm]
  dsimp only
  rw [hv]
  dsimp only
  rw [hnn, htt, if_neg (by simp), h1, hr]

example : (0 : Rat) < toFloat (1 / 100) ∧ loadH5 (saveH5 [⟨⟨7, 100⟩, [3, 4]⟩] (toFloat (1 / 100))) 9 (toFloat (1 / 100)) true =
    .ok [⟨⟨9, 100⟩, [3, 4]⟩] := by decide +kernel

/-! ## C103 -/

/-- C103, what holds: in strict mode a file without an attribute "magic", or whose first one is another number, is refused by
both loaders. -/
theorem C103_magic_partial (uid : UID) (tps : Rat) :
    (∀ f : JFile, (f.attrs = none ∨ ∃ as, f.attrs = some as ∧ (∀ a ∈ as, a.name ≠ some "magic")) → (loadJson f uid true).isThrow) ∧
    (∀ (f : JFile) (as : List JAttr) (v : Int), f.attrs = some (⟨some "magic", some (.inl v)⟩ :: as) → v ≠ 2682 →
      (loadJson f uid true).isThrow) ∧
    (∀ f : HFile, f.magic ≠ some 2682 → (loadH5 f uid tps true).isThrow) := by
  refine ⟨?_, ?_, ?_⟩
  · intro f hf
    have : jsonMagic f = .ok false := by
      unfold jsonMagic
      rcases hf with h | ⟨as, h, h2⟩
      · rw [h]
      · rw [h]
        dsimp only
        have : as.find? (fun a => a.name == some "magic") = none := by
          rw [List.find?_eq_none]
          intro a ha
          simpa using h2 a ha
        rw [this]
    unfold loadJson
    rw [this]
    rfl
  · intro f as v h hv
    have : jsonMagic f = .ok false := by
      unfold jsonMagic
      rw [h]
      dsimp only
      rw [List.find?_cons_of_pos (by simp)]
      dsimp only
      congr 1
      simpa using hv
    unfold loadJson
    rw [this]
    rfl
  · intro f hf
    unfold loadH5 h5Magic
    cases hm : f.magic with
    | none => rfl
    | some m =>
      dsimp only
      rw [if_neg (by intro h; rw [hm, h] at hf; exact hf rfl)]
      rfl

/-- C103 is false: in strict mode a file of another version is loaded, by both loaders; so is a JSON file whose "magic" has no
value. -/
theorem C103_version_refuted :
    loadJson ⟨some [⟨some "magic", some (.inl 2682)⟩, ⟨some "version", some (.inr [7, 7])⟩], [1], [2]⟩ 9 true = .ok [⟨⟨9, 2⟩, [1]⟩] ∧
    loadH5 ⟨some 2682, some [7, 7], [1], [2]⟩ 9 1 true = .ok [⟨⟨9, 2⟩, [1]⟩] ∧
    loadJson ⟨some [⟨some "magic", none⟩], [1], [2]⟩ 9 true = .ok [⟨⟨9, 2⟩, [1]⟩] := by
  decide +kernel

/-- C103, what holds: without strict mode the magic number and the version do not matter: a JSON file is loaded as if it had no
attributes or the right ones, whatever its (readable) magic number; an HDF5 file whose version can be compared is loaded as if it
had the right magic number and version. -/
theorem C103_lenient (uid : UID) (tps : Rat) :
    (∀ f : JFile, jsonMagic f ≠ .ub → loadJson f uid false = loadJson { f with attrs := none } uid false ∧
      loadJson f uid false = loadJson { f with attrs := some [⟨some "magic", some (.inl 2682)⟩] } uid true) ∧
    (∀ f : HFile, h5Version f ≠ .ub → loadH5 f uid tps false =
      loadH5 { f with magic := some 2682, version := some [0, 1] } uid tps true) := by
  have hj : ∀ f : JFile, jsonMagic f ≠ .ub → loadJson f uid false = match getInts f.nodes with
      | .ub => .ub
      | .throw e => .throw e
      | .ok nodes => convert nodes (f.times.map (fun t => toFloat (toDouble t))) uid 1 := by
    intro f hf
    unfold loadJson
    cases hm : jsonMagic f with
    | ub => exact absurd hm hf
    | throw e =>
      unfold jsonMagic at hm
      split at hm <;> try cases hm
      split at hm <;> try cases hm
      split at hm <;> cases hm
    | ok b =>
      simp only [Bool.and_false, Bool.false_eq_true, if_false]
      cases getInts f.nodes <;> rfl
  refine ⟨fun f hf => ⟨?_, ?_⟩, fun f hf => ?_⟩
  · rw [hj f hf, hj { f with attrs := none } (by simp [jsonMagic])]
  · rw [hj f hf]
    show _ = (match getInts f.nodes with
      | .ub => _
      | .throw e => _
      | .ok nodes => _)
    cases getInts f.nodes <;> rfl
  · have hv : ∃ b, h5Version f = .ok b := by
      cases h : h5Version f with
      | ub => exact absurd h hf
      | ok b => exact ⟨b, rfl⟩
      | throw e =>
        have aux : ∀ (l : List Int), (∀ m : List Int, equalPrefix l m ≠ .throw e) := by
          intro l
          induction l with
          | nil => intro m; simp [equalPrefix]
          | cons a l ih =>
            intro m
            cases m with
            | nil => simp [equalPrefix]
            | cons b m =>
              unfold equalPrefix
              split
              · exact ih m
              · simp
        unfold h5Version at h
        split at h
        · cases h
        · exact absurd h (aux _ _)
    obtain ⟨b, hb⟩ := hv
    have hm : ∃ c, h5Magic f false = .ok c := by
      unfold h5Magic
      split
      · exact ⟨false, rfl⟩
      · split
        · exact ⟨true, rfl⟩
        · exact ⟨false, rfl⟩
    obtain ⟨c, hc⟩ := hm
    unfold loadH5
    rw [hc, hb]
    rfl

/-- Non-vacuity: files with another magic number and version. -/
example : loadJson ⟨some [⟨some "magic", some (.inl 7)⟩], [1], [2]⟩ 9 false = .ok [⟨⟨9, 2⟩, [1]⟩] ∧
    loadH5 ⟨some 3, some [7, 7], [1], [2]⟩ 9 1 false = .ok [⟨⟨9, 2⟩, [1]⟩] := by decide +kernel

/-- C103, limit: an HDF5 file whose version attribute continues 0, 1 makes the check read outside its array. -/
theorem C103_version_ub (f : HFile) (v : Int) (vs : List Int) (hm : f.magic = some 2682) (hv : f.version = some (0 :: 1 :: v :: vs))
    (uid : UID) (tps : Rat) (strict : Bool) : loadH5 f uid tps strict = .ub := by
  unfold loadH5 h5Magic h5Version
  rw [hm, hv]
  rfl

/-- C74/C103: arrays of different length are refused. -/
theorem C103_lengths (uid : UID) (tps : Rat) (nodes : List Int) (times : List Rat) (h : nodes.length ≠ times.length) :
    (convert nodes times uid tps).isThrow := by
  unfold convert
  rw [if_pos h]
  rfl

end Knp.Props
