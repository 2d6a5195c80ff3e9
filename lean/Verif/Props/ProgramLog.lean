import Verif.Props.Program
import Verif.Props.Monitoring
import Verif.Model.ProgramLog

/-! # C165: the logs of a running program -/

namespace Knp.Props
open Knp Knp.Bus Knp.Spec Knp.Neurons Knp.Stdp Knp.Prog Knp.Mon

variable {σ N B F : Type} [Field F] [LinearOrder F]
variable {be : Prog.Backend F} {o : Ops F} {L : Layout} {c : Code σ F} {pops : List (Learn.Pop N B F)} {projs : List (Learn.Proj F)}
  {inputs : List (UID × UID)} {u0 : σ} {acts : List (Act σ)} {s : Prog.State σ (Learn.Pop N B F) (Learn.Proj F) F}
  {tr : List (Item F)}

omit [Field F] [LinearOrder F] in
/-- The spike messages of an iteration that named populations sent. -/
def namedSpikes {M : Type} (names : List (UID × M)) (i : Iter F) : List SpikeMessage :=
  i.out.spikes.filter (fun m => decide (m.header.senderUid ∈ names.map (fun x => x.1)))

omit [Field F] [LinearOrder F] in
/-- How many spikes the populations with name `n` sent in an iteration. -/
def spikeCount {M : Type} [DecidableEq M] (names : List (UID × M)) (n : M) (i : Iter F) : Nat :=
  ((i.out.spikes.filter (fun m => names.lookup m.header.senderUid == some n)).map (fun m => m.neuronIndexes.length)).sum

/-- The names are given to populations: none of them is an input channel or a handler. -/
def NamesPopulations {M : Type} (L : Layout) (names : List (UID × M)) : Prop :=
  ∀ u ∈ names.map (fun x => x.1), u ∉ L.inputs ∧ u ∉ L.handlers.map (fun d => d.uid)

omit [Field F] [LinearOrder F] in
private theorem calls_split {n : Nat} {f : Iter F → Call} : ∀ (tr pre : List (Item F)),
    (∀ a b i, pre ++ tr = a ++ Item.iter i :: b → f i = ⟨i.time + 1, Sys.spikesIn (i.observed.getD n [])⟩) →
    callsOf n tr = (iters tr).map f
  | [], pre, _ => rfl
  | .iter i :: tr, pre, h => by
    rw [callsOf, calls_split tr (pre ++ [.iter i]) (fun a b j hj => h a b j (by rw [← hj]; simp)),
      show iters (Item.iter i :: tr) = i :: iters tr from rfl, List.map_cons, h pre tr i rfl]
  | .halt t fed :: tr, pre, h => by
    rw [callsOf, calls_split tr (pre ++ [.halt t fed]) (fun a b j hj => h a b j (by rw [← hj]; simp))]
    rfl
  | .read x y z got :: tr, pre, h => by
    rw [callsOf, calls_split tr (pre ++ [.read x y z got]) (fun a b j hj => h a b j (by rw [← hj]; simp))]
    rfl

/-- The calls of a logger of populations: after every step, with what the named populations sent in it. -/
private theorem calls_eq {M : Type} (h : ProgRun be o L c pops projs inputs u0 acts s tr) (n : Nat) (u : UID) (names : List (UID × M))
    (ho : L.observers[n]? = some (logObserver u names)) (hn : NamesPopulations L names) :
    callsOf n tr = (iters tr).map (fun i => ⟨i.time + 1, namedSpikes names i⟩) := by
  apply calls_split tr []
  intro a b i ht
  rw [List.nil_append] at ht
  have h1 := (C118_observer h ht).2 n _ ho
  rw [List.getD_eq_getElem?_getD, h1, Option.getD_some]
  congr 1
  unfold logObserver
  dsimp only
  rw [List.filter_append, List.filter_map, List.filter_map]
  have e1 : (i.out.impacts.filter ((fun x : Message F => (x.kind == MsgKind.spike) && decide (x.sender ∈ names.map (fun x => x.1))) ∘
      Message.impact)) = [] := by
    rw [List.filter_eq_nil_iff]
    intro m _
    simp [Message.kind]
  rw [e1, List.map_nil, List.nil_append, List.filter_append, List.map_append]
  have e2 : (external L a i).filter ((fun x : Message F => (x.kind == MsgKind.spike) && decide (x.sender ∈ names.map (fun x => x.1))) ∘
      Message.spike) = [] := by
    rw [List.filter_eq_nil_iff]
    intro m hm hc
    have hs := ((C119_senders h ht).2 m hm).2
    simp only [Function.comp, Bool.and_eq_true, decide_eq_true_eq] at hc
    obtain ⟨h3, h4⟩ := hn _ hc.2
    exact hs.elim h3 h4
  rw [e2, List.map_nil, List.append_nil, Sys.spikesIn_map]
  unfold namedSpikes
  apply List.filter_congr
  intro m _
  simp only [Function.comp]
  rfl

private theorem time_at (h : ProgRun be o L c pops projs inputs u0 acts s tr) : ∀ (k : Nat) (i : Iter F), (iters tr)[k]? = some i →
    i.time = k := by
  have key : ∀ (t pre : List (Item F)), tr = pre ++ t → ∀ (k : Nat) (i : Iter F), (iters t)[k]? = some i →
      i.time = (iters pre).length + k := by
    intro t
    induction t with
    | nil => intro pre _ k i hk; simp [iters] at hk
    | cons it t ih =>
      intro pre ht k i hk
      have ht' : tr = (pre ++ [it]) ++ t := by rw [ht]; simp
      cases it with
      | iter j =>
        have e : iters (Item.iter j :: t) = j :: iters t := rfl
        rw [e] at hk
        cases k with
        | zero =>
          rw [List.getElem?_cons_zero, Option.some.injEq] at hk
          subst hk
          exact (out_at h ht).1
        | succ k =>
          rw [List.getElem?_cons_succ] at hk
          rw [ih _ ht' k i hk]
          have : iters (pre ++ [Item.iter j]) = iters pre ++ [j] := by unfold iters; simp
          rw [this, List.length_append, List.length_singleton]
          omega
      | halt a b =>
        rw [ih _ ht' k i hk]
        have : iters (pre ++ [Item.halt a b]) = iters pre := by unfold iters; simp
        rw [this]
      | read a b c d =>
        rw [ih _ ht' k i hk]
        have : iters (pre ++ [Item.read a b c d]) = iters pre := by unfold iters; simp
        rw [this]
  intro k i hk
  simpa [iters] using key tr [] rfl k i hk

/-! ## The spikes log -/

private theorem lookup_of_mem {M : Type} : ∀ (names : List (UID × M)) (u : UID), u ∈ names.map (fun x => x.1) → ∃ n, names.lookup u = some n
  | [], u, h => by simp at h
  | a :: names, u, h => by
    rw [List.lookup_cons]
    by_cases hu : u = a.1
    · exact ⟨a.2, by simp [hu]⟩
    · have : (u == a.1) = false := by simpa using hu
      rw [this]
      refine lookup_of_mem names u ?_
      rw [List.map_cons, List.mem_cons] at h
      exact h.resolve_left hu

/-- C165, spikes log: after any run of a program, on either backend, the log has exactly one record for every spike message a named
population sent, step by step and inside a step in the order of the populations, with the number of that step, the population's name and all
its spikes.  Any other channels, handlers, observers and program functions. -/
theorem C165_spikes_log {M : Type} [LinearOrder M] (h : ProgRun be o L c pops projs inputs u0 acts s tr) (n : Nat) (u : UID)
    (names : List (UID × M)) (ho : L.observers[n]? = some (logObserver u names)) (hn : NamesPopulations L names) :
    ∃ log, spikesLogOf names (callsOf n tr) = .ok log ∧
      log.map (fun r => (r.step, some r.sender, r.spikes)) = (iters tr).flatMap (fun i => (namedSpikes names i).map (fun m =>
        (i.time, names.lookup m.header.senderUid, m.neuronIndexes))) := by
  rw [calls_eq h n u names ho hn]
  have hst : ∀ i ∈ iters tr, ∀ m ∈ i.out.spikes, m.header.sendTime = i.time := by
    intro i hi m hm
    have : ∃ a b, tr = a ++ Item.iter i :: b := by
      unfold iters at hi
      obtain ⟨it, hit, he⟩ := List.mem_filterMap.1 hi
      obtain ⟨a, b, hab⟩ := List.append_of_mem hit
      cases it with
      | iter j => simp only [Option.some.injEq] at he; subst he; exact ⟨a, b, hab⟩
      | halt x y => simp at he
      | read x y z g => simp at he
    obtain ⟨a, b, ht⟩ := this
    exact (spikes_at h ht m hm).1
  revert hst
  generalize iters tr = l
  intro hst
  induction l with
  | nil => exact ⟨[], rfl, rfl⟩
  | cons i l ih =>
    obtain ⟨r, hr1, hr2⟩ := ih (fun j hj => hst j (List.mem_cons_of_mem _ hj))
    have hone : ∃ q, spikesLog names (namedSpikes names i) = .ok q ∧ q.map (fun r => (r.step, some r.sender, r.spikes)) =
        (namedSpikes names i).map (fun m => (i.time, names.lookup m.header.senderUid, m.neuronIndexes)) := by
      have hall : ∀ m ∈ namedSpikes names i, m.header.sendTime = i.time ∧ ∃ x, names.lookup m.header.senderUid = some x := by
        intro m hm
        unfold namedSpikes at hm
        rw [List.mem_filter] at hm
        exact ⟨hst i (by simp) m hm.1, lookup_of_mem names _ (by simpa using hm.2)⟩
      revert hall
      generalize namedSpikes names i = ms
      intro hall
      induction ms with
      | nil => exact ⟨[], rfl, rfl⟩
      | cons m ms ih2 =>
        obtain ⟨q, hq1, hq2⟩ := ih2 (fun x hx => hall x (List.mem_cons_of_mem _ hx))
        obtain ⟨h1, x, h2⟩ := hall m (by simp)
        refine ⟨⟨m.header.sendTime, x, m.neuronIndexes⟩ :: q, ?_, ?_⟩
        · simp only [spikesLog, h2, hq1]
        · rw [List.map_cons, List.map_cons, hq2, h1, h2]
    obtain ⟨q, hq1, hq2⟩ := hone
    refine ⟨q ++ r, ?_, ?_⟩
    · rw [List.map_cons]
      simp only [spikesLogOf, hq1, hr1]
    · rw [List.map_append, hq2, hr2, List.flatMap_cons]

/-! ## The aggregated log -/

private theorem filterMap_div {α : Type} (p : Nat) (hp : 0 < p) (f : Nat → α) : ∀ n : Nat,
    (List.range n).filterMap (fun i => if (i + 1) % p = 0 then some (f i) else none) =
      (List.range (n / p)).map (fun k => f ((k + 1) * p - 1))
  | 0 => by simp
  | n + 1 => by
    rw [List.range_succ, List.filterMap_append, filterMap_div p hp f n]
    by_cases hm : (n + 1) % p = 0
    · have hd : (n + 1) / p = n / p + 1 := by
        rw [Nat.succ_div_of_dvd (Nat.dvd_of_mod_eq_zero hm)]
      have hv : (n / p + 1) * p = n + 1 := by
        rw [← hd]; exact Nat.div_mul_cancel (Nat.dvd_of_mod_eq_zero hm)
      rw [hd, List.range_succ, List.map_append]
      simp [hm, hv]
    · have hd : (n + 1) / p = n / p := by
        rw [Nat.succ_div_of_not_dvd (fun hdvd => hm (Nat.mod_eq_zero_of_dvd hdvd))]
      rw [hd]
      simp [hm]

private theorem filter_index {α : Type} (time : α → Nat) (Q : Nat → Bool) : ∀ (l : List α) (t : Nat),
    (∀ (k : Nat) x, l[k]? = some x → time x = t + k) →
    l.filter (fun x => Q (time x)) = (List.range l.length).filterMap (fun j => if Q (t + j) then l[j]? else none)
  | [], t, _ => rfl
  | x :: l, t, h => by
    have ih := filter_index time Q l (t + 1) (fun k y hk => by
      have := h (k + 1) y (by rw [List.getElem?_cons_succ]; exact hk)
      omega)
    have hx : time x = t := by simpa using h 0 x rfl
    rw [List.length_cons, List.range_succ_eq_map, List.filterMap_cons, List.filterMap_map, List.filter_cons, hx, ih]
    have e : (List.range l.length).filterMap ((fun j => if Q (t + j) = true then (x :: l)[j]? else none) ∘ Nat.succ) =
        (List.range l.length).filterMap (fun j => if Q (t + 1 + j) then l[j]? else none) := by
      apply List.filterMap_congr
      intro j _
      simp only [Function.comp, Nat.succ_eq_add_one, List.getElem?_cons_succ]
      rw [show t + (j + 1) = t + 1 + j by omega]
    rw [e]
    by_cases hq : Q t = true
    · simp [hq]
    · simp [hq]

private theorem noRow_iff (period : Nat) (hp : 0 < period) (calls : List Call) (hstep : ∀ k x, calls[k]? = some x → x.step = k + 1)
    (k j : Nat) (hi : (k + 1) * period - 1 < calls.length) (hj : j < (k + 1) * period - 1) :
    noRowBetween period calls j ((k + 1) * period - 1) = decide (k * period ≤ j + 1) := by
  rw [Bool.eq_iff_iff, decide_eq_true_eq]
  unfold noRowBetween
  rw [List.all_eq_true]
  constructor
  · intro h
    by_contra hlt
    have hk : k * period - 1 < (k + 1) * period - 1 := by
      rw [Nat.add_mul]; omega
    have hmem := h (k * period - 1) (List.mem_range.2 hk)
    have hl : k * period - 1 < calls.length := by omega
    rw [List.getElem?_eq_getElem hl] at hmem
    have hs := hstep (k * period - 1) _ (List.getElem?_eq_getElem hl)
    simp only [Bool.or_eq_true, decide_eq_true_eq] at hmem
    rcases hmem with hmem | hmem
    · omega
    · apply hmem
      rw [hs, show k * period - 1 + 1 = k * period by omega]
      exact Nat.mul_mod_left _ _
  · intro h l hl
    rw [List.mem_range] at hl
    by_cases hlj : l ≤ j
    · simp [hlj]
    · have hl2 : l < calls.length := by omega
      rw [List.getElem?_eq_getElem hl2]
      have hs := hstep l _ (List.getElem?_eq_getElem hl2)
      simp only [Bool.or_eq_true, decide_eq_true_eq]
      right
      rw [hs]
      intro hm
      obtain ⟨q, hq⟩ := Nat.dvd_of_mod_eq_zero hm
      have h1 : k * period < q * period := by rw [Nat.mul_comm q]; omega
      have h2 : q * period < (k + 1) * period := by rw [Nat.mul_comm q]; omega
      have := Nat.lt_of_mul_lt_mul_right h1
      have := Nat.lt_of_mul_lt_mul_right h2
      omega

/-- The spikes of `n` in the steps `t` with `first ≤ t < last`. -/
def spikesInSteps {M : Type} [DecidableEq M] (names : List (UID × M)) (n : M) (tr : List (Item F)) (first last : Nat) : Nat :=
  (((iters tr).filter (fun i => decide (first ≤ i.time) && decide (i.time < last))).map (spikeCount names n)).sum

/-- C165, aggregated log (part: which steps a line covers).  After any run of a program, on either backend, the log has exactly the lines
with the indices `period`, `2 * period`, … up to the number of steps made, and the line with index `(k + 1) * period` has, under every
name of the header, the number of spikes the populations of that name sent in the steps from `k * period - 1` to
`(k + 1) * period - 2`: one step earlier than its index says (see `C165_refuted`).  Distinct names, `period` not 0. -/
theorem C165_aggregated_partial {M : Type} [LinearOrder M] (h : ProgRun be o L c pops projs inputs u0 acts s tr) (n : Nat) (u : UID)
    (names : List (UID × M)) (hd : (names.map (fun x => x.2)).Nodup) (ho : L.observers[n]? = some (logObserver u names))
    (hn : NamesPopulations L names) (period : Nat) (hp : 0 < period) :
    (aggregated names period (callsOf n tr)).log = (List.range ((iters tr).length / period)).map (fun k =>
      ⟨(k + 1) * period, (header names).map (fun x => spikesInSteps names x tr (k * period - 1) ((k + 1) * period - 1))⟩) := by
  have htime := time_at h
  rw [(C77_rows_partial names hd period _).1, calls_eq h n u names ho hn]
  revert htime
  unfold spikesInSteps
  generalize iters tr = l
  intro htime
  have hcalls : ∀ k, (l.map (fun i => (⟨i.time + 1, namedSpikes names i⟩ : Call)))[k]? = (l[k]?).map (fun i => (⟨k + 1, namedSpikes names i⟩ : Call)) := by
    intro k
    rw [List.getElem?_map]
    cases hk : l[k]? with
    | none => rfl
    | some i => simp [htime k i hk]
  have hstep : ∀ k (x : Call), (l.map (fun i => (⟨i.time + 1, namedSpikes names i⟩ : Call)))[k]? = some x → x.step = k + 1 := by
    intro k x hx
    rw [hcalls, Option.map_eq_some_iff] at hx
    obtain ⟨i, _, rfl⟩ := hx
    rfl
  have e1 : expectedRows names period (l.map (fun i => (⟨i.time + 1, namedSpikes names i⟩ : Call))) (header names) =
      (List.range l.length).filterMap (fun i => if (i + 1) % period = 0 then some (⟨i + 1, (header names).map (windowSpikes names period
            (l.map (fun i => (⟨i.time + 1, namedSpikes names i⟩ : Call))) i)⟩ : Row) else none) := by
    unfold expectedRows
    rw [List.length_map]
    apply List.filterMap_congr
    intro i hi
    rw [hcalls, List.getElem?_eq_getElem (List.mem_range.1 hi)]
    rfl
  rw [e1, filterMap_div period hp]
  apply List.map_congr_left
  intro k hk
  have hk' := List.mem_range.1 hk
  have hkl : (k + 1) * period ≤ l.length := by
    have := Nat.div_mul_le_self l.length period
    exact Nat.le_trans (Nat.mul_le_mul_right _ hk') this
  have hpos : 0 < (k + 1) * period := Nat.mul_pos (Nat.succ_pos _) hp
  have hsub : (k + 1) * period - 1 + 1 = (k + 1) * period := by omega
  rw [hsub]
  congr 1
  apply List.map_congr_left
  intro x _
  unfold windowSpikes windowCalls
  have e2 : (List.range ((k + 1) * period - 1)).filterMap (fun j => if noRowBetween period
        (l.map (fun i => (⟨i.time + 1, namedSpikes names i⟩ : Call))) j ((k + 1) * period - 1) = true
        then (l.map (fun i => (⟨i.time + 1, namedSpikes names i⟩ : Call)))[j]? else none) =
      (l.filter (fun i => decide (k * period - 1 ≤ i.time) && decide (i.time < (k + 1) * period - 1))).map
        (fun i => (⟨i.time + 1, namedSpikes names i⟩ : Call)) := by
    have hcut : l.length = ((k + 1) * period - 1) + (l.length - ((k + 1) * period - 1)) := by omega
    rw [filter_index (fun i : Iter F => i.time) (fun t => decide (k * period - 1 ≤ t) && decide (t < (k + 1) * period - 1)) l 0
      (fun k x hk => by rw [htime k x hk]; omega)]
    rw [List.map_filterMap, hcut, List.range_add, List.filterMap_append]
    have hz : List.filterMap (fun j => Option.map (fun i : Iter F => (⟨i.time + 1, namedSpikes names i⟩ : Call))
        (if (decide (k * period - 1 ≤ 0 + j) && decide (0 + j < (k + 1) * period - 1)) = true then l[j]? else none))
        (List.map (fun x => (k + 1) * period - 1 + x) (List.range (l.length - ((k + 1) * period - 1)))) = [] := by
      rw [List.filterMap_eq_nil_iff]
      intro j hj
      obtain ⟨y, _, rfl⟩ := List.mem_map.1 hj
      have : decide (0 + ((k + 1) * period - 1 + y) < (k + 1) * period - 1) = false := by
        rw [decide_eq_false_iff_not]; omega
      rw [this, Bool.and_false]
      rfl
    rw [hz, List.append_nil]
    apply List.filterMap_congr
    intro j hj
    have hj' := List.mem_range.1 hj
    rw [noRow_iff period hp _ hstep k j (by rw [List.length_map]; omega) hj']
    have hb : (decide (k * period - 1 ≤ 0 + j) && decide (0 + j < (k + 1) * period - 1)) = decide (k * period ≤ j + 1) := by
      rw [Bool.eq_iff_iff]
      simp only [Bool.and_eq_true, decide_eq_true_eq]
      omega
    rw [hb]
    by_cases hc : k * period ≤ j + 1
    · rw [if_pos (by simpa using hc), if_pos (by simpa using hc), List.getElem?_map]
    · rw [if_neg (by simpa using hc), if_neg (by simpa using hc)]
      rfl
  rw [e2, List.map_map]
  congr 1
  apply List.map_congr_left
  intro i _
  simp only [Function.comp, callSpikes, spikeCount, namedSpikes]
  rw [List.filter_filter]
  congr 2
  apply List.filter_congr
  intro m _
  rw [Bool.eq_iff_iff]
  simp only [Bool.and_eq_true, decide_eq_true_eq, beq_iff_eq, and_iff_left_iff_imp]
  intro hl
  clear * - hl
  induction names with
  | nil => simp at hl
  | cons a names ih =>
    rw [List.lookup_cons] at hl
    by_cases hu : m.header.senderUid = a.1
    · simp [hu]
    · rw [show (m.header.senderUid == a.1) = false by simpa using hu] at hl
      rw [List.map_cons]
      exact List.mem_cons_of_mem _ (ih hl)

/-- C165 in full for the aggregated log: the line with index `(k + 1) * period` counts the spikes of the `period` steps before it. -/
def C165_statement : Prop :=
  ∀ (L : Layout) (c : Code Nat ℚ) (pops : List (Learn.Pop (Lif ℚ) (Blifat ℚ) ℚ)) (projs : List (Learn.Proj ℚ)) (inputs : List (UID × UID))
    (acts : List (Act Nat)) (s : Prog.State Nat (Learn.Pop (Lif ℚ) (Blifat ℚ) ℚ) (Learn.Proj ℚ) ℚ) (tr : List (Item ℚ)),
    ProgRun .single StdpEx.o L c pops projs inputs 0 acts s tr → ∀ (n : Nat) (u : UID) (names : List (UID × Nat)),
    (names.map (fun x => x.2)).Nodup → L.observers[n]? = some (logObserver u names) → NamesPopulations L names → ∀ period, 0 < period →
    (aggregated names period (callsOf n tr)).log = (List.range ((iters tr).length / period)).map (fun k =>
      ⟨(k + 1) * period, (header names).map (fun x => spikesInSteps names x tr (k * period) ((k + 1) * period))⟩)

namespace LogEx

/-- The program of `ProgEx` with a logger of population 1 (name 12) and population 2 (name 11). -/
def names : List (UID × Nat) := [(1, 12), (2, 11)]
/-- The endpoints. -/
def logL : Layout := { ProgEx.L with observers := [⟨80, .impact, [10]⟩, logObserver 81 names] }
/-- The run. -/
def result := Prog.run (Learn.stepSingle (Learn.machine StdpEx.o)) logL ProgEx.c
  (Prog.boot (Learn.machine StdpEx.o) logL LearnEx.pops LearnEx.projs [(10, 50)] 0) ProgEx.acts

/-- The run satisfies `ProgRun`. -/
theorem run : ∃ s, ProgRun .single StdpEx.o logL ProgEx.c LearnEx.pops LearnEx.projs [(10, 50)] 0 ProgEx.acts s (ProgEx.trace result) := by
  have hok : result.isOk = true := by decide +kernel
  cases hr : result with
  | throw w => rw [hr] at hok; cases hok
  | ub => rw [hr] at hok; cases hok
  | ok x =>
    refine ⟨x.1, by decide +kernel, by decide +kernel, ?_, hr⟩
    intro j hj
    simp only [LearnEx.projs, List.mem_cons, List.not_mem_nil, or_false] at hj
    rcases hj with rfl | rfl | rfl | rfl <;> rfl

/-- Population 2 spikes in steps 1 to 4, population 1 in steps 3 and 4; the lines with period 2. -/
example : logL.observers[1]? = some (logObserver 81 names) ∧ NamesPopulations logL names ∧ (iters (ProgEx.trace result)).length = 5 ∧
    (aggregated names 2 (callsOf 1 (ProgEx.trace result))).log = [⟨2, [0, 0]⟩, ⟨4, [2, 0]⟩] := by
  refine ⟨rfl, ?_, ?_, ?_⟩
  · unfold NamesPopulations; decide +kernel
  · decide +kernel
  · decide +kernel
example : ∃ log, spikesLogOf names (callsOf 1 (ProgEx.trace result)) = .ok log ∧
    log.map (fun r => (r.step, r.sender, r.spikes)) = [(1, 11, [0]), (2, 11, [0]), (3, 12, [0]), (3, 11, [0]), (4, 12, [0]), (4, 11, [0])] :=
  ⟨[⟨1, 11, [0]⟩, ⟨2, 11, [0]⟩, ⟨3, 12, [0]⟩, ⟨3, 11, [0]⟩, ⟨4, 12, [0]⟩, ⟨4, 11, [0]⟩], by decide +kernel, rfl⟩

end LogEx

/-- C165 is false of the aggregated log: the function writes the line before it adds the messages of the step just made, so the spike of
step 1 is not in the line with index 2 but in the one with index 4. -/
theorem C165_refuted : ¬ C165_statement := by
  intro h
  obtain ⟨s, hrun⟩ := LogEx.run
  have := h _ _ _ _ _ _ _ _ hrun 1 81 LogEx.names (by decide) rfl (by unfold NamesPopulations; decide +kernel) 2 (by decide)
  revert this
  decide +kernel

end Knp.Props
