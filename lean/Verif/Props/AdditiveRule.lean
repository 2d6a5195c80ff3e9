import Verif.Spec.AdditiveRule
import Verif.Props.Learn
import Mathlib.Algebra.Order.Floor.Defs
import Mathlib.Algebra.Order.Floor.Semiring

/-!
# C177: additive STDP, synapse by synapse
-/

namespace Knp.Props
open Knp Knp.Stdp Knp.Spec Knp.Spec.Additive

variable {F : Type} [Field F] [LinearOrder F]

/-! ## Recording -/

omit [Field F] [LinearOrder F] in
private theorem recorded_append (cap : Nat) (l a b : List Nat) : recorded cap (recorded cap l a) b = recorded cap l (a ++ b) := by
  unfold recorded
  rw [List.append_assoc, List.take_append]
  congr 2
  simp only [List.length_append, List.length_take]
  congr 1
  omega

omit [Field F] [LinearOrder F] in
private theorem recorded_nil (cap : Nat) (l : List Nat) : recorded cap l [] = l := by simp [recorded]

private theorem push_post (s : ASyn F) (cap : Nat) (h : Room s cap) (t : Nat) :
    pushTime .post t s = { s with postTimes := recorded cap s.postTimes [t] } := by
  unfold pushTime
  simp only
  rw [add_comm s.tauMinus]
  by_cases hc : s.postTimes.length < cap
  · rw [if_pos ((h _).2 hc)]
    unfold recorded
    rw [List.take_of_length_le (by simp; omega)]
  · rw [if_neg (fun hh => hc ((h _).1 hh))]
    unfold recorded
    rw [show cap - s.postTimes.length = 0 by omega]
    simp

private theorem push_pre (s : ASyn F) (cap : Nat) (h : Room s cap) (t : Nat) :
    pushTime .pre t s = { s with preTimes := recorded cap s.preTimes [t] } := by
  unfold pushTime
  simp only
  rw [add_comm s.tauMinus]
  by_cases hc : s.preTimes.length < cap
  · rw [if_pos ((h _).2 hc)]
    unfold recorded
    rw [List.take_of_length_le (by simp; omega)]
  · rw [if_neg (fun hh => hc ((h _).1 hh))]
    unfold recorded
    rw [show cap - s.preTimes.length = 0 by omega]
    simp

private theorem iter_post (cap : Nat) (t : Nat) : ∀ (c : Nat) (s : ASyn F), Room s cap →
    (pushTime .post t)^[c] s = { s with postTimes := recorded cap s.postTimes (List.replicate c t) } := by
  intro c
  induction c with
  | zero => intro s _; simp [recorded_nil]
  | succ c ih =>
    intro s h
    rw [Function.iterate_succ, Function.comp, push_post s cap h, ih { s with postTimes := recorded cap s.postTimes [t] } h, List.replicate_succ]
    simp only
    rw [recorded_append]
    rfl

private theorem iter_pre (cap : Nat) (t : Nat) : ∀ (c : Nat) (s : ASyn F), Room s cap →
    (pushTime .pre t)^[c] s = { s with preTimes := recorded cap s.preTimes (List.replicate c t) } := by
  intro c
  induction c with
  | zero => intro s _; simp [recorded_nil]
  | succ c ih =>
    intro s h
    rw [Function.iterate_succ, Function.comp, push_pre s cap h, ih { s with preTimes := recorded cap s.preTimes [t] } h, List.replicate_succ]
    simp only
    rw [recorded_append]
    rfl

omit [Field F] [LinearOrder F] in
private theorem modify_all (f : ASyn F → ASyn F) (k : Nat) : ∀ (is : List Nat) (l : List (ASyn F)), is.Nodup →
    (is.foldl (fun ss i => ss.modify i f) l)[k]? = if k ∈ is then (l[k]?).map f else l[k]? := by
  intro is
  induction is with
  | nil => intro l _; simp
  | cons i is ih =>
    intro l hn
    rw [List.nodup_cons] at hn
    rw [List.foldl_cons, ih _ hn.2, List.getElem?_modify]
    by_cases hi : i = k
    · subst hi
      rw [if_neg hn.1, if_pos (List.mem_cons_self ..)]
      simp
    · have : (k ∈ i :: is) ↔ k ∈ is := by simp [List.mem_cons, Ne.symm hi]
      simp only [this, if_neg hi, id_map']

/-- One message, one synapse: its history gets the time once for every time the message names its target. -/
private theorem append_at (w : Which) (g : Nat → List Nat) (k n0 : Nat) (hg : ∀ n, (g n).Nodup ∧ (k ∈ g n ↔ n = n0)) (m : SpikeMessage)
    (l : List (ASyn F)) :
    (appendTimes w g m l)[k]? = (l[k]?).map ((pushTime w m.header.sendTime)^[m.neuronIndexes.count n0]) := by
  unfold appendTimes
  generalize m.neuronIndexes = is
  induction is generalizing l with
  | nil => simp
  | cons i is ih =>
    rw [List.foldl_cons, ih, modify_all _ _ _ _ (hg i).1]
    by_cases hi : i = n0
    · rw [if_pos ((hg i).2.2 hi), hi, List.count_cons_self, Function.iterate_succ, Option.map_map]
    · rw [if_neg (fun h => hi ((hg i).2.1 h)), List.count_cons_of_ne hi]

omit [Field F] [LinearOrder F] in
private theorem lookup_eq (reg : List (UID × Processing)) (u : UID) : processingOf reg u = reg.lookup u := by
  unfold processingOf
  induction reg with
  | nil => rfl
  | cons e reg ih =>
    obtain ⟨a, b⟩ := e
    rw [List.find?_cons, List.lookup_cons]
    by_cases h : a = u
    · subst h
      simp
    · have h1 : (a == u) = false := by simpa using h
      have h2 : (u == a) = false := by simpa using fun e => h e.symm
      simp only [h1, h2, ih]

/-- All messages of a step, one synapse. -/
private theorem init_at (reg : List (UID × Processing)) (g : Nat → List Nat) (k n0 cap : Nat) (hg : ∀ n, (g n).Nodup ∧ (k ∈ g n ↔ n = n0)) :
    ∀ (ms : List SpikeMessage) (lk : Bool) (l : List (ASyn F)) (s : ASyn F), l[k]? = some s → Room s cap →
    (initProjection ⟨lk, reg, l, g⟩ ms).1.stdpPops = reg ∧ (initProjection ⟨lk, reg, l, g⟩ ms).1.findPost = g ∧
    (initProjection ⟨lk, reg, l, g⟩ ms).1.syns[k]? = some { s with
      preTimes := recorded cap s.preTimes (heard reg [.stdpAndSpike] n0 ms)
      postTimes := recorded cap s.postTimes (heard reg [.stdpAndSpike, .stdpOnly] n0 ms) } := by
  intro ms
  induction ms with
  | nil => intro lk l s hl _; simp [initProjection, heard, recorded_nil, hl]
  | cons m ms ih =>
    intro lk l s hl hr
    unfold initProjection
    simp only
    have hh : ∀ modes, heard reg modes n0 (m :: ms) = heard reg modes n0 [m] ++ heard reg modes n0 ms := by
      intro modes; simp [heard]
    have step1 : ∃ l1 s1, (initMessage ⟨lk, reg, l, g⟩ m).1 = ⟨lk, reg, l1, g⟩ ∧ l1[k]? = some s1 ∧ Room s1 cap ∧
        s1 = { s with
          preTimes := recorded cap s.preTimes (heard reg [.stdpAndSpike] n0 [m])
          postTimes := recorded cap s.postTimes (heard reg [.stdpAndSpike, .stdpOnly] n0 [m]) } := by
      unfold initMessage
      simp only [lookup_eq]
      cases hm : reg.lookup m.header.senderUid with
      | none => exact ⟨l, s, rfl, hl, hr, by simp [heard, hm, recorded_nil]⟩
      | some mode =>
        cases mode with
        | stdpOnly =>
          refine ⟨_, { s with postTimes := recorded cap s.postTimes (List.replicate (m.neuronIndexes.count n0) m.header.sendTime) }, rfl, ?_, hr, ?_⟩
          · rw [append_at _ _ _ _ hg, hl, Option.map_some, iter_post cap _ _ s hr]
          · simp [heard, hm, recorded_nil]
        | stdpAndSpike =>
          refine ⟨_, _, rfl, ?_, ?_, rfl⟩
          · rw [append_at _ _ _ _ hg, append_at _ _ _ _ hg, hl, Option.map_some, Option.map_some, iter_post cap _ _ s hr, iter_pre cap _ _ _ (by exact hr)]
            simp [heard, hm]
          · exact hr
    obtain ⟨l1, s1, e1, e2, e3, e4⟩ := step1
    rw [e1]
    obtain ⟨i1, i2, i3⟩ := ih lk l1 s1 e2 e3
    refine ⟨i1, i2, ?_⟩
    rw [i3, e4]
    simp only [recorded_append, ← hh]

variable [IsStrictOrderedRing F]

private theorem pair_eq (o : Ops F) (tp tm : F) (a b : Nat) : stdpW o tp tm 1 1 ((subU64 b a : Nat) : F) = pair o tp tm a b := by
  unfold stdpW pair
  generalize subU64 b a = d
  rw [one_mul, one_mul]
  by_cases hd : d = 0
  · subst hd
    simp
  · rw [if_pos (by exact_mod_cast Nat.pos_of_ne_zero hd), if_neg hd]

private theorem modify_at (o : Ops F) (cap : Nat) (s : ASyn F) (hr : Room s cap) :
    modifyWeight o s = if cap ≤ s.preTimes.length ∧ cap ≤ s.postTimes.length then
      { s with
        weight := s.weight + (s.preTimes.map (fun a => (s.postTimes.map (fun b => pair o s.tauPlus s.tauMinus a b)).sum)).sum
        preTimes := []
        postTimes := [] } else s := by
  have key : ∀ c : Nat, ((c : F) ≥ s.tauPlus + s.tauMinus) ↔ cap ≤ c := by
    intro c
    rw [ge_iff_le, ← not_lt, hr c, not_lt]
  unfold modifyWeight
  simp only [key]
  by_cases h : cap ≤ s.preTimes.length ∧ cap ≤ s.postTimes.length
  · rw [if_pos h, if_pos h]
    unfold stdpDelta
    simp only [pair_eq]
  · rw [if_neg h, if_neg h]

/-- C177. Additive STDP, synapse by synapse: after any history of steps with any messages, synapse `k` of a projection is what the rule of one synapse
(`Spec.Additive.step`) makes of it alone.  Other synapses, the lock and the order of the lookups have no part in it. -/
theorem C177_synapse (o : Ops F) (p : AProj F) (k : Nat) (s : ASyn F) (hk : p.syns[k]? = some s) (cap : Nat) (hr : Room s cap)
    (hfind : ∀ n, (p.findPost n).Nodup ∧ (k ∈ p.findPost n ↔ n = s.target)) (steps : List (List SpikeMessage)) :
    (steps.foldl (additiveStep o) p).syns[k]? = some (steps.foldl (Additive.step o p.stdpPops cap) s) := by
  induction steps generalizing p s with
  | nil => exact hk
  | cons ms steps ih =>
    obtain ⟨lk, reg, l, g⟩ := p
    rw [List.foldl_cons, List.foldl_cons]
    obtain ⟨i1, i2, i3⟩ := init_at reg g k s.target cap hfind ms lk l s hk hr
    have hstep : (additiveStep o ⟨lk, reg, l, g⟩ ms).syns[k]? = some (Additive.step o reg cap s ms) := by
      unfold additiveStep
      simp only [List.getElem?_map, i3, Option.map_some]
      rw [modify_at o cap _ (by exact hr)]
      rfl
    have hfix : (Additive.step o reg cap s ms).target = s.target ∧ Room (Additive.step o reg cap s ms) cap := by
      unfold Additive.step
      simp only
      split <;> exact ⟨rfl, hr⟩
    have := ih (additiveStep o ⟨lk, reg, l, g⟩ ms) _ hstep hfix.2 (by
      rw [hfix.1]
      show ∀ n, ((initProjection ⟨lk, reg, l, g⟩ ms).1.findPost n).Nodup ∧ _
      rw [show (additiveStep o ⟨lk, reg, l, g⟩ ms).findPost = g from i2, i2]
      exact hfind)
    rw [this]
    show some (List.foldl (Additive.step o (initProjection ⟨lk, reg, l, g⟩ ms).1.stdpPops cap) _ steps) = _
    rw [i1]

omit [IsStrictOrderedRing F] in
/-- C177. Every synapse has such a number of times, in every Archimedean field. -/
theorem C177_room [FloorSemiring F] (s : ASyn F) : Room s ⌈s.tauPlus + s.tauMinus⌉₊ := fun _ => Nat.lt_ceil.symm

private theorem heard_none (reg : List (UID × Processing)) (modes : List Processing) (h : ∀ e ∈ reg, e.2 ∉ modes) (n : Nat) (ms : List SpikeMessage) :
    heard reg modes n ms = [] := by
  unfold heard
  rw [List.flatMap_eq_nil_iff]
  intro m _
  cases hm : reg.lookup m.header.senderUid with
  | none => rfl
  | some mode =>
    have : ∃ u, (u, mode) ∈ reg := by
      have hl := lookup_eq reg m.header.senderUid
      rw [hm] at hl
      unfold processingOf at hl
      cases hf : reg.find? (fun e => e.1 == m.header.senderUid) with
      | none => rw [hf] at hl; cases hl
      | some e =>
        rw [hf] at hl
        refine ⟨e.1, ?_⟩
        rw [← Option.some.inj hl]
        exact List.mem_of_find?_eq_some hf
    obtain ⟨u, hu⟩ := this
    simp only
    rw [if_neg (h _ hu)]

/-- C177. Populations that are registered for training only never train: if all are, no weight ever changes, whatever the projection hears. -/
theorem C177_stdp_only (o : Ops F) (p : AProj F) (k : Nat) (s : ASyn F) (hk : p.syns[k]? = some s) (cap : Nat) (hr : Room s cap)
    (hfind : ∀ n, (p.findPost n).Nodup ∧ (k ∈ p.findPost n ↔ n = s.target)) (steps : List (List SpikeMessage))
    (h0 : 0 < s.tauPlus + s.tauMinus) (hpre : s.preTimes = []) (hreg : ∀ e ∈ p.stdpPops, e.2 = .stdpOnly) :
    ∃ s', (steps.foldl (additiveStep o) p).syns[k]? = some s' ∧ s'.weight = s.weight ∧ s'.preTimes = [] := by
  refine ⟨_, C177_synapse o p k s hk cap hr hfind steps, ?_⟩
  have hcap : 0 < cap := (hr 0).1 (by simpa using h0)
  clear hk hfind h0 hr
  generalize p.stdpPops = reg at hreg
  induction steps generalizing s with
  | nil => exact ⟨rfl, hpre⟩
  | cons ms steps ih =>
    rw [List.foldl_cons]
    have e : (Additive.step o reg cap s ms).weight = s.weight ∧ (Additive.step o reg cap s ms).preTimes = [] := by
      unfold Additive.step
      rw [heard_none reg [.stdpAndSpike] (fun e he => by rw [hreg e he]; decide), recorded_nil, hpre]
      simp only [List.length_nil]
      rw [if_neg (by omega)]
      exact ⟨rfl, rfl⟩
    obtain ⟨i1, i2⟩ := ih _ e.2
    exact ⟨i1.trans e.1, i2⟩

/-- C177. If all populations are registered for both, the two histories of a synapse are always the same: the weight depends on one train of spikes, paired with
itself. -/
theorem C177_same_histories (o : Ops F) (p : AProj F) (k : Nat) (s : ASyn F) (hk : p.syns[k]? = some s) (cap : Nat) (hr : Room s cap)
    (hfind : ∀ n, (p.findPost n).Nodup ∧ (k ∈ p.findPost n ↔ n = s.target)) (steps : List (List SpikeMessage))
    (h0 : s.preTimes = s.postTimes) (hreg : ∀ e ∈ p.stdpPops, e.2 = .stdpAndSpike) :
    ∃ s', (steps.foldl (additiveStep o) p).syns[k]? = some s' ∧ s'.preTimes = s'.postTimes := by
  refine ⟨_, C177_synapse o p k s hk cap hr hfind steps, ?_⟩
  clear hk hfind hr
  generalize p.stdpPops = reg at hreg
  have hh : ∀ n ms, heard reg [.stdpAndSpike, .stdpOnly] n ms = heard reg [.stdpAndSpike] n ms := by
    intro n ms
    have h1 := heard_none reg [.stdpOnly] (fun e he => by rw [hreg e he]; decide) n ms
    unfold heard at *
    rw [List.flatMap_eq_nil_iff] at h1
    apply List.flatMap_congr
    intro m hm
    have h2 := h1 m hm
    cases hl : reg.lookup m.header.senderUid with
    | none => rfl
    | some mode =>
      rw [hl] at h2
      cases mode with
      | stdpAndSpike => rfl
      | stdpOnly => simpa using h2
  induction steps generalizing s with
  | nil => exact h0
  | cons ms steps ih =>
    rw [List.foldl_cons]
    apply ih
    unfold Additive.step
    rw [hh, h0]
    simp only
    split <;> rfl

/-- C177 in a running network: the synapse of the projection after any run. -/
theorem C177_run {N B : Type} {o : Ops F} {pops : List (Learn.Pop N B F)} {projs : List (Learn.Proj F)} {inputs : List (UID × UID)}
    {chans : Nat} {envs : List (Sys.Env F)} {s : Learn.State (Learn.Pop N B F) (Learn.Proj F) F} {os : List (Sys.StepOut F)}
    (h : LearnRun o pops projs inputs chans envs s os) (n : Nat) (j : Learn.Proj F) (hj : projs[n]? = some j) (reg : List (UID × Processing))
    (syns : List (ASyn F)) (pre post : Nat → List Nat) (hs : j.syns = .additive reg syns pre post) (k : Nat) (y : ASyn F) (hy : syns[k]? = some y)
    (cap : Nat) (hr : Room y cap) (hfind : ∀ n, (post n).Nodup ∧ (k ∈ post n ↔ n = y.target)) :
    ∃ j' syns', s.projs[n]? = some j' ∧ j'.syns = .additive reg syns' pre post ∧
      syns'[k]? = some ((os.map (fun out => heardBy out j.ident.uid)).foldl (Additive.step o reg cap) y) := by
  obtain ⟨j', h1, _, _, h2, _⟩ := C89_run h n j hj reg syns pre post hs
  exact ⟨j', _, h1, h2, C177_synapse o ⟨j.locked, reg, syns, post⟩ k y hy cap hr hfind _⟩

/-- A synapse with room for two times; a population registered for both spikes twice: the histories fill, the weight grows by four pairs. -/
example : let y : ASyn ℚ := ⟨0, 1, 2, 1, .excitatory, 1, 1, [], []⟩
    Room y 2 ∧ (∀ n, ((addProj false []).findPost n).Nodup ∧ (0 ∈ (addProj false []).findPost n ↔ n = y.target)) ∧
    (addProj false []).syns[0]? = some y ∧ 0 < y.tauPlus + y.tauMinus ∧
    (Additive.step StdpEx.o [(5, .stdpAndSpike)] 2 y [⟨⟨5, 3⟩, [1]⟩]).postTimes = [3] ∧
    ([[⟨⟨5, 3⟩, [1]⟩], [⟨⟨5, 4⟩, [1, 1]⟩]].foldl (Additive.step StdpEx.o [(5, .stdpAndSpike)] 2) y).weight ≠ 2 := by
  refine ⟨?_, ?_, rfl, by norm_num, by decide +kernel, by decide +kernel⟩
  · intro c
    show (c : ℚ) < 1 + 1 ↔ c < 2
    constructor
    · intro h
      have : (c : ℚ) < ((2 : Nat) : ℚ) := by push_cast; linarith
      exact_mod_cast this
    · intro h
      have : (c : ℚ) < ((2 : Nat) : ℚ) := by exact_mod_cast h
      push_cast at this
      linarith
  · intro n
    by_cases h : n = 1 <;> simp [addProj, h]

/-- C177_stdp_only: the same spikes of a population registered for training only. -/
example : let y : ASyn ℚ := ⟨0, 1, 2, 1, .excitatory, 1, 1, [], []⟩
    (∀ e ∈ [((5 : UID), Processing.stdpOnly)], e.2 = .stdpOnly) ∧
    ([[⟨⟨5, 3⟩, [1]⟩], [⟨⟨5, 4⟩, [1, 1]⟩]].foldl (Additive.step StdpEx.o [(5, .stdpOnly)] 2) y) = { y with postTimes := [3, 4] } := by
  refine ⟨by simp, by decide +kernel⟩

end Knp.Props
